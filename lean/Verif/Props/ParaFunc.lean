import Verif.Model.ParaFunc
import Mathlib.Data.List.Basic
import Mathlib.Data.List.Perm.Basic
import Mathlib.Data.List.Nodup
import Mathlib.Tactic.Linarith

/-!
# C40: parameter functions
-/

set_option autoImplicit false
set_option linter.unusedSectionVars false
set_option linter.unusedSimpArgs false

namespace Pydsge
namespace Spec
open ParaFunc

/-- The entries can be evaluated one after the other, starting from `c`, with `c'` as the result. -/
inductive Runs {V : Type} (ap : V → V → Except PyErr V) : Ctx V → List (PDef V) → Ctx V → Prop
  | nil (c : Ctx V) : Runs ap c [] c
  | cons (c c' : Ctx V) (d : PDef V) (r : List (PDef V)) (v : V) (hv : d.body.eval ap c = .ok v) (hr : Runs ap (c.set d.name v) r c') :
      Runs ap c (d :: r) c'

/-- Each entry only refers to known names and to earlier entries. -/
inductive Orderable {V : Type} : (String → Prop) → List (PDef V) → Prop
  | nil (known : String → Prop) : Orderable known []
  | cons (known : String → Prop) (d : PDef V) (r : List (PDef V)) (hd : ∀ n ∈ d.body.names, known n)
      (hr : Orderable (fun n => known n ∨ n = d.name) r) : Orderable known (d :: r)

end Spec

namespace ParaFunc
open Spec

variable {V : Type} {ap : V → V → Except PyErr V}

/-- `c'` knows what `c` knows. -/
def Ctx.Le (c c' : Ctx V) : Prop := ∀ n v, c n = some v → c' n = some v

theorem Ctx.Le.refl (c : Ctx V) : c.Le c := fun _ _ h => h
theorem Ctx.Le.trans {a b c : Ctx V} (h1 : a.Le b) (h2 : b.Le c) : a.Le c := fun n v h => h2 n v (h1 n v h)
theorem Ctx.le_set {c : Ctx V} {n : String} (h : c n = none) (v : V) : c.Le (c.set n v) := by
  intro m w hm
  unfold Ctx.set
  split
  · subst_vars; rw [h] at hm; cases hm
  · exact hm

theorem Ctx.set_le {c c' : Ctx V} {n : String} {v : V} (h : c.Le c') (hv : c' n = some v) : (c.set n v).Le c' := by
  intro m w hm
  unfold Ctx.set at hm
  split at hm
  · subst_vars; injection hm with hm; rw [hv, hm]
  · exact h m w hm

theorem eval_mono {c c' : Ctx V} (h : c.Le c') (e : PE V) : ∀ v, e.eval ap c = .ok v → e.eval ap c' = .ok v := by
  induction e with
  | lit w => intro v hv; exact hv
  | name n =>
    intro v hv
    simp only [PE.eval] at hv ⊢
    cases hc : c n with
    | none => rw [hc] at hv; cases hv
    | some w => rw [hc] at hv; rw [h n w hc]; exact hv
  | app f a ihf iha =>
    intro v hv
    simp only [PE.eval] at hv ⊢
    cases hf : f.eval ap c with
    | error e => rw [hf] at hv; cases hv
    | ok g =>
      rw [hf] at hv; rw [ihf g hf]
      cases hx : a.eval ap c with
      | error e => rw [hx] at hv; cases hv
      | ok x => rw [hx] at hv; rw [iha x hx]; exact hv

theorem eval_error_mono {c c' : Ctx V} (h : c.Le c') (e : PE V) : ∀ err, err ≠ .nameError → e.eval ap c = .error err → e.eval ap c' = .error err := by
  induction e with
  | lit w => intro err _ hv; exact hv
  | name n =>
    intro err hne hv
    simp only [PE.eval] at hv ⊢
    cases hc : c n with
    | none => rw [hc] at hv; cases hv; exact absurd rfl hne
    | some w => rw [hc] at hv; cases hv
  | app f a ihf iha =>
    intro err hne hv
    simp only [PE.eval] at hv ⊢
    cases hf : f.eval ap c with
    | error e => rw [hf] at hv; cases hv; rw [ihf err hne hf]
    | ok g =>
      rw [hf] at hv; rw [eval_mono h f g hf]
      cases hx : a.eval ap c with
      | error e => rw [hx] at hv; cases hv; rw [iha err hne hx]
      | ok x => rw [hx] at hv; rw [eval_mono h a x hx]; exact hv

/-! ## Runs -/

theorem Runs.append {c c' c'' : Ctx V} {l l' : List (PDef V)} (h : Runs ap c l c') (h' : Runs ap c' l' c'') : Runs ap c (l ++ l') c'' := by
  induction h with
  | nil c => exact h'
  | cons c c' d r v hv hr ih => exact .cons _ _ _ _ _ hv (ih h')

theorem Runs.other {c c' : Ctx V} {l : List (PDef V)} (h : Runs ap c l c') (n : String) (hn : n ∉ l.map PDef.name) : c' n = c n := by
  induction h with
  | nil c => rfl
  | cons c c' d r v hv hr ih =>
    simp only [List.map_cons, List.mem_cons, not_or] at hn
    rw [ih hn.2]
    simp [Ctx.set, hn.1]

theorem Runs.known {c c' : Ctx V} {l : List (PDef V)} (h : Runs ap c l c') (n : String) (hn : n ∈ l.map PDef.name) : ∃ v, c' n = some v := by
  induction h with
  | nil c => cases hn
  | cons c c' d r v hv hr ih =>
    by_cases hr' : n ∈ r.map PDef.name
    · exact ih hr'
    · simp only [List.map_cons, List.mem_cons] at hn
      rcases hn with rfl | hn
      · rw [Runs.other hr _ hr']; exact ⟨v, by simp [Ctx.set]⟩
      · exact absurd hn hr'

/-- Names that are not known yet and all different. -/
def Fresh (c : Ctx V) (l : List (PDef V)) : Prop := (l.map PDef.name).Nodup ∧ ∀ d ∈ l, c d.name = none

theorem Fresh.perm {c : Ctx V} {l l' : List (PDef V)} (h : Fresh c l) (hp : l'.Perm l) : Fresh c l' :=
  ⟨((hp.map PDef.name).nodup_iff).2 h.1, fun d hd => h.2 d (hp.mem_iff.1 hd)⟩

theorem Fresh.tail {c : Ctx V} {d : PDef V} {r : List (PDef V)} (h : Fresh c (d :: r)) (v : V) : Fresh (c.set d.name v) r := by
  obtain ⟨h1, h2⟩ := h
  simp only [List.map_cons, List.nodup_cons] at h1
  refine ⟨h1.2, fun x hx => ?_⟩
  have : x.name ≠ d.name := fun he => h1.1 (he ▸ List.mem_map_of_mem hx)
  simp [Ctx.set, this, h2 x (List.mem_cons_of_mem _ hx)]

theorem Runs.le {c c' : Ctx V} {l : List (PDef V)} (h : Runs ap c l c') (hf : Fresh c l) : c.Le c' := by
  induction h with
  | nil c => exact Ctx.Le.refl _
  | cons c c' d r v hv hr ih =>
    exact (Ctx.le_set (hf.2 d List.mem_cons_self) v).trans (ih (hf.tail v))

/-- Every entry has its value in the final context. -/
theorem Runs.value {c c' : Ctx V} {l : List (PDef V)} (h : Runs ap c l c') (hf : Fresh c l) (d : PDef V) (hd : d ∈ l) :
    ∃ v, d.body.eval ap c' = .ok v ∧ c' d.name = some v := by
  induction h with
  | nil c => cases hd
  | cons c c' d' r v hv hr ih =>
    have hle : (c.set d'.name v).Le c' := Runs.le hr (hf.tail v)
    rcases List.mem_cons.1 hd with rfl | hd
    · refine ⟨v, eval_mono ((Ctx.le_set (hf.2 d List.mem_cons_self) v).trans hle) _ _ hv, hle _ _ (by simp [Ctx.set])⟩
    · exact ih (hf.tail v) hd

/-! ## One pass -/

def unchecked (l : List (PDef V × Bool)) : List (PDef V) := (l.filter (fun d => !d.2)).map Prod.fst

@[simp] theorem unchecked_nil : unchecked ([] : List (PDef V × Bool)) = [] := rfl
@[simp] theorem unchecked_true (d : PDef V) (l : List (PDef V × Bool)) : unchecked ((d, true) :: l) = unchecked l := rfl
@[simp] theorem unchecked_false (d : PDef V) (l : List (PDef V × Bool)) : unchecked ((d, false) :: l) = d :: unchecked l := rfl

theorem all_iff (l : List (PDef V × Bool)) : l.all (fun d => d.2) = true ↔ unchecked l = [] := by
  induction l with
  | nil => simp
  | cons a r ih => obtain ⟨d, b⟩ := a; cases b <;> simp_all

theorem unchecked_start (defs : List (PDef V)) : unchecked (defs.map (fun d => (d, false))) = defs := by
  induction defs with
  | nil => rfl
  | cons d r ih => simp [ih]

theorem pass_ok {raise : Bool} (l : List (PDef V × Bool)) : ∀ (c ss : Ctx V) (suc : Bool) (st : RState V) (s : Bool),
    pass ap raise l c ss suc = .ok (st, s) →
    ∃ done, Runs ap c done st.ctx ∧ (done ++ unchecked st.defs).Perm (unchecked l) ∧ (s = true ↔ suc = true ∨ done ≠ []) ∧
      (∀ n, st.ss n = if n ∈ done.map PDef.name then st.ctx n else ss n) := by
  induction l with
  | nil =>
    intro c ss suc st s h
    simp only [pass, Except.ok.injEq, Prod.mk.injEq] at h
    obtain ⟨rfl, rfl⟩ := h
    exact ⟨[], .nil c, by simp, by simp, by simp⟩
  | cons a r ih =>
    intro c ss suc st s h
    obtain ⟨d, b⟩ := a
    cases b with
    | true =>
      simp only [pass] at h
      cases hp : pass ap raise r c ss suc with
      | error e => rw [hp] at h; cases h
      | ok q =>
        obtain ⟨st', s'⟩ := q
        rw [hp] at h
        simp only [Except.ok.injEq, Prod.mk.injEq] at h
        obtain ⟨rfl, rfl⟩ := h
        exact ih c ss suc st' s' hp
    | false =>
      simp only [pass] at h
      cases he : d.body.eval ap c with
      | ok v =>
        rw [he] at h; simp only at h
        cases hp : pass ap raise r (c.set d.name v) (ss.set d.name v) true with
        | error e => rw [hp] at h; cases h
        | ok q =>
          obtain ⟨st', s'⟩ := q
          rw [hp] at h
          simp only [Except.ok.injEq, Prod.mk.injEq] at h
          obtain ⟨rfl, rfl⟩ := h
          obtain ⟨done, h1, h2, h3, h4⟩ := ih _ _ _ _ _ hp
          refine ⟨d :: done, .cons _ _ _ _ v he h1, ?_, ?_, ?_⟩
          · simpa using h2
          · simp at h3; simp [h3]
          · intro n
            rw [h4 n]
            by_cases hn : n ∈ done.map PDef.name
            · simp only [if_pos hn]
              rw [if_pos (by simp only [List.map_cons, List.mem_cons]; exact .inr hn)]
            · simp only [if_neg hn]
              by_cases hd : n = d.name
              · rw [if_pos (by simp [hd]), Runs.other h1 n hn]; simp [Ctx.set, hd]
              · rw [if_neg (by simp only [List.map_cons, List.mem_cons, not_or]; exact ⟨hd, hn⟩)]; simp [Ctx.set, hd]
      | error e =>
        rw [he] at h
        by_cases hne : e = .nameError
        · subst hne
          simp only at h
          cases raise with
          | true => simp at h
          | false =>
            simp only [Bool.false_eq_true, if_false] at h
            cases hp : pass ap false r c ss suc with
            | error e => rw [hp] at h; cases h
            | ok q =>
              obtain ⟨st', s'⟩ := q
              rw [hp] at h
              simp only [Except.ok.injEq, Prod.mk.injEq] at h
              obtain ⟨rfl, rfl⟩ := h
              obtain ⟨done, h1, h2, h3, h4⟩ := ih _ _ _ _ _ hp
              refine ⟨done, h1, ?_, h3, h4⟩
              simp only [unchecked_false]
              exact List.perm_middle.trans (h2.cons d)
        · cases e <;> first | exact absurd rfl hne | (simp at h)

/-- A pass without progress: every open entry refers to an unknown name. -/
theorem pass_stuck {raise : Bool} (l : List (PDef V × Bool)) : ∀ (c ss : Ctx V) (suc : Bool) (st : RState V),
    pass ap raise l c ss suc = .ok (st, false) → ∀ d ∈ unchecked l, d.body.eval ap c = .error .nameError := by
  induction l with
  | nil => intro c ss suc st _ d hd; cases hd
  | cons a r ih =>
    intro c ss suc st h x hx
    obtain ⟨d, b⟩ := a
    cases b with
    | true =>
      simp only [pass] at h
      cases hp : pass ap raise r c ss suc with
      | error e => rw [hp] at h; cases h
      | ok q =>
        obtain ⟨st', s'⟩ := q
        rw [hp] at h
        simp only [Except.ok.injEq, Prod.mk.injEq] at h
        obtain ⟨rfl, rfl⟩ := h
        exact ih c ss suc st' hp x hx
    | false =>
      simp only [pass] at h
      cases he : d.body.eval ap c with
      | ok v =>
        rw [he] at h; simp only at h
        cases hp : pass ap raise r (c.set d.name v) (ss.set d.name v) true with
        | error e => rw [hp] at h; cases h
        | ok q =>
          obtain ⟨st', s'⟩ := q
          rw [hp] at h
          simp only [Except.ok.injEq, Prod.mk.injEq] at h
          obtain ⟨rfl, rfl⟩ := h
          obtain ⟨done, h1, h2, h3, h4⟩ := pass_ok _ _ _ _ _ _ hp
          simp at h3
      | error e =>
        rw [he] at h
        by_cases hne : e = .nameError
        · subst hne
          simp only at h
          cases raise with
          | true => simp at h
          | false =>
            simp only [Bool.false_eq_true, if_false] at h
            cases hp : pass ap false r c ss suc with
            | error e => rw [hp] at h; cases h
            | ok q =>
              obtain ⟨st', s'⟩ := q
              rw [hp] at h
              simp only [Except.ok.injEq, Prod.mk.injEq] at h
              obtain ⟨rfl, rfl⟩ := h
              simp only [unchecked_false, List.mem_cons] at hx
              rcases hx with rfl | hx
              · exact he
              · exact ih _ _ _ _ hp x hx
        · cases e <;> first | exact absurd rfl hne | (simp at h)

/-- The pass after a pass without progress raises. -/
theorem pass_raises (l : List (PDef V × Bool)) (c ss : Ctx V) (suc : Bool) (hne : unchecked l ≠ [])
    (h : ∀ d ∈ unchecked l, d.body.eval ap c = .error .nameError) : pass ap true l c ss suc = .error .nameError := by
  induction l with
  | nil => exact absurd rfl hne
  | cons a r ih =>
    obtain ⟨d, b⟩ := a
    cases b with
    | true => simp only [pass]; rw [ih hne h]
    | false => simp only [pass]; rw [h d (by simp)]; rfl

/-- If all entries have values in `F`, a pass inside `F` goes through and stays inside. -/
theorem pass_total (F : Ctx V) (l : List (PDef V × Bool)) : ∀ (c ss : Ctx V) (suc : Bool), c.Le F →
    (∀ d ∈ unchecked l, ∃ v, d.body.eval ap F = .ok v ∧ F d.name = some v) →
    ∃ st s, pass ap false l c ss suc = .ok (st, s) ∧ st.ctx.Le F := by
  induction l with
  | nil => intro c ss suc hc _; exact ⟨_, _, rfl, hc⟩
  | cons a r ih =>
    intro c ss suc hc hF
    obtain ⟨d, b⟩ := a
    cases b with
    | true =>
      obtain ⟨st, s, h1, h2⟩ := ih c ss suc hc hF
      exact ⟨⟨st.ctx, st.ss, (d, true) :: st.defs⟩, s, by simp only [pass]; rw [h1], h2⟩
    | false =>
      obtain ⟨v, hv, hvF⟩ := hF d (by simp)
      have hr : ∀ d ∈ unchecked r, ∃ v, d.body.eval ap F = .ok v ∧ F d.name = some v := fun d hd => hF d (by simp [hd])
      cases he : d.body.eval ap c with
      | ok w =>
        have : w = v := by
          have := eval_mono hc _ _ he
          rw [hv] at this; cases this; rfl
        subst this
        obtain ⟨st, s, h1, h2⟩ := ih (c.set d.name w) (ss.set d.name w) true (Ctx.set_le hc hvF) hr
        exact ⟨⟨st.ctx, st.ss, (d, true) :: st.defs⟩, s, by simp only [pass]; rw [he]; simp only; rw [h1], h2⟩
      | error e =>
        by_cases hne : e = .nameError
        · subst hne
          obtain ⟨st, s, h1, h2⟩ := ih c ss suc hc hr
          exact ⟨⟨st.ctx, st.ss, (d, false) :: st.defs⟩, s, by simp only [pass]; rw [he]; simp only [Bool.false_eq_true, if_false]; rw [h1], h2⟩
        · have := eval_error_mono hc _ _ hne he
          rw [hv] at this; cases this

/-! ## The loop -/

theorem loop_more (f : Nat) : ∀ (suc : Bool) (st : RState V) (r : Except PyErr (RState V)), loop ap f suc st = some r →
    loop ap (f + 1) suc st = some r := by
  induction f with
  | zero => intro suc st r h; cases h
  | succ f ih =>
    intro suc st r h
    rw [loop] at h ⊢
    split
    · rename_i ha; rw [if_pos ha] at h; exact h
    · rename_i ha; rw [if_neg ha] at h
      cases hp : pass ap (!suc) st.defs st.ctx st.ss false with
      | error e => rw [hp] at h; exact h
      | ok q => obtain ⟨st', s'⟩ := q; rw [hp] at h; exact ih _ _ _ h

theorem loop_fuel {f f' : Nat} (hf : f ≤ f') (suc : Bool) (st : RState V) (r : Except PyErr (RState V)) (h : loop ap f suc st = some r) :
    loop ap f' suc st = some r := by
  induction hf with
  | refl => exact h
  | step _ ih => exact loop_more _ _ _ _ ih

theorem loop_stuck (f : Nat) (st : RState V) (h : ∀ d ∈ unchecked st.defs, d.body.eval ap st.ctx = .error .nameError) :
    (loop ap (f + 1) false st).isSome := by
  rw [loop]
  split
  · rfl
  · rename_i ha
    rw [all_iff] at ha
    rw [Bool.not_false, pass_raises st.defs st.ctx st.ss false ha h]
    rfl

theorem loop_terminates (f : Nat) : ∀ (st : RState V), (unchecked st.defs).length + 2 ≤ f → (loop ap f true st).isSome := by
  induction f with
  | zero => intro st h; omega
  | succ f ih =>
    intro st h
    rw [loop]
    split
    · rfl
    · rename_i ha
      cases hp : pass ap (!true) st.defs st.ctx st.ss false with
      | error e => rfl
      | ok q =>
        obtain ⟨st', s'⟩ := q
        obtain ⟨done, h1, h2, h3, h4⟩ := pass_ok _ _ _ _ _ _ hp
        simp only
        cases s' with
        | true =>
          apply ih
          have hd : done ≠ [] := by simpa using h3
          have hl := h2.length_eq
          rw [List.length_append] at hl
          have : 0 < done.length := List.length_pos_iff.2 hd
          omega
        | false =>
          have hd : done = [] := by simpa using h3
          subst hd
          have hc : st'.ctx = st.ctx := by
            generalize st'.ctx = c' at h1
            cases h1; rfl
          have hst := pass_stuck _ _ _ _ _ hp
          obtain ⟨f', rfl⟩ : ∃ f', f = f' + 1 := ⟨f - 1, by omega⟩
          apply loop_stuck
          intro d hdm
          rw [hc]
          exact hst d (h2.mem_iff.1 (by simpa using hdm))

/-- What holds in every state of the loop. -/
def Reached (ap : V → V → Except PyErr V) (base : Ctx V) (defs : List (PDef V)) (st : RState V) : Prop :=
  ∃ done, Runs ap base done st.ctx ∧ (done ++ unchecked st.defs).Perm defs ∧
    ∀ n, st.ss n = if n ∈ done.map PDef.name then st.ctx n else none

theorem reached_pass {base : Ctx V} {defs : List (PDef V)} {st st' : RState V} {raise s : Bool} (h : Reached ap base defs st)
    (hf : Fresh base defs)
    (hp : pass ap raise st.defs st.ctx st.ss false = .ok (st', s)) : Reached ap base defs st' := by
  obtain ⟨done, h1, h2, h3⟩ := h
  obtain ⟨done', g1, g2, g3, g4⟩ := pass_ok _ _ _ _ _ _ hp
  refine ⟨done ++ done', Runs.append h1 g1, ?_, ?_⟩
  · rw [List.append_assoc]; exact (g2.append_left done).trans h2
  · intro n
    rw [g4 n]
    by_cases hn : n ∈ done'.map PDef.name
    · rw [if_pos hn, if_pos (by rw [List.map_append]; exact List.mem_append_right _ hn)]
    · rw [if_neg hn, h3 n, List.map_append]
      by_cases hn' : n ∈ done.map PDef.name
      · rw [if_pos hn', if_pos (List.mem_append_left _ hn'), Runs.other g1 n hn]
      · rw [if_neg hn', if_neg (by rw [List.mem_append]; exact fun h => h.elim hn' hn)]

theorem loop_sound {base : Ctx V} {defs : List (PDef V)} (hf : Fresh base defs) (f : Nat) : ∀ (suc : Bool) (st st' : RState V), Reached ap base defs st →
    loop ap f suc st = some (.ok st') → Reached ap base defs st' ∧ unchecked st'.defs = [] := by
  induction f with
  | zero => intro suc st st' _ h; cases h
  | succ f ih =>
    intro suc st st' hR h
    rw [loop] at h
    split at h
    · rename_i ha
      simp only [Option.some.injEq, Except.ok.injEq] at h
      subst h
      exact ⟨hR, (all_iff _).1 ha⟩
    · cases hp : pass ap (!suc) st.defs st.ctx st.ss false with
      | error e => rw [hp] at h; cases h
      | ok q =>
        obtain ⟨st'', s'⟩ := q
        rw [hp] at h
        exact ih s' st'' st' (reached_pass hR hf hp) h

/-- If the entries can be ordered, the loop finishes inside the result of that order. -/
theorem loop_complete {base F : Ctx V} {defs l : List (PDef V)} (hf : Fresh base defs) (hl : l.Perm defs) (hF : Runs ap base l F) (f : Nat) :
    ∀ (st : RState V), Reached ap base defs st → st.ctx.Le F → (unchecked st.defs).length + 1 ≤ f →
      ∃ st', loop ap f true st = some (.ok st') ∧ st'.ctx.Le F := by
  have hfl : Fresh base l := hf.perm hl
  induction f with
  | zero => intro st _ _ h; omega
  | succ f ih =>
    intro st hR hle hlen
    rw [loop]
    split
    · exact ⟨st, rfl, hle⟩
    · rename_i ha
      rw [all_iff] at ha
      obtain ⟨done, h1, h2, h3⟩ := hR
      have hval : ∀ d ∈ unchecked st.defs, ∃ v, d.body.eval ap F = .ok v ∧ F d.name = some v := fun d hd =>
        Runs.value hF hfl d (hl.mem_iff.2 (h2.mem_iff.1 (List.mem_append_right _ hd)))
      obtain ⟨st', s', hp, hle'⟩ := pass_total F st.defs st.ctx st.ss false hle hval
      rw [Bool.not_true, hp]
      simp only
      have hR' := reached_pass ⟨done, h1, h2, h3⟩ hf hp
      cases s' with
      | true =>
        obtain ⟨done', g1, g2, g3, g4⟩ := pass_ok _ _ _ _ _ _ hp
        apply ih st' hR' hle'
        have hd : done' ≠ [] := by simpa using g3
        have hlen' := g2.length_eq
        rw [List.length_append] at hlen'
        have : 0 < done'.length := List.length_pos_iff.2 hd
        omega
      | false =>
        exfalso
        have hst := pass_stuck _ _ _ _ _ hp
        -- the first entry of the order that is still open can be evaluated
        have hfd : Fresh base (done ++ unchecked st.defs) := hf.perm h2
        have hbl : base.Le st.ctx := by
          refine Runs.le h1 ⟨?_, fun d hd => hfd.2 d (List.mem_append_left _ hd)⟩
          have := hfd.1
          rw [List.map_append] at this
          exact (List.nodup_append.1 this).1
        have key : ∀ (l' : List (PDef V)) (c : Ctx V), Runs ap c l' F → Fresh c l' → c.Le st.ctx →
            (∀ d ∈ l', d ∈ done ∨ d ∈ unchecked st.defs) → ∀ d ∈ l', d ∉ unchecked st.defs := by
          intro l' c hr
          generalize hFF : F = F' at hr
          induction hr with
          | nil c => intro _ _ _ d hd; cases hd
          | cons c c' d r v hv hr ih' =>
            subst hFF
            intro hfr hcl hmem
            have hdn : d ∉ unchecked st.defs := by
              intro hd
              have := hst d hd
              rw [eval_mono hcl _ _ hv] at this
              cases this
            have hdd : d ∈ done := (hmem d List.mem_cons_self).resolve_right hdn
            obtain ⟨w, hw⟩ := Runs.known h1 d.name (List.mem_map_of_mem hdd)
            have hwv : w = v := by
              have e1 := hle _ _ hw
              have e2 : F d.name = some v := Runs.le hr (hfr.tail v) _ _ (by simp [Ctx.set])
              rw [e1] at e2; injection e2
            subst hwv
            have := ih' rfl (hfr.tail w) (Ctx.set_le hcl hw) (fun x hx => hmem x (List.mem_cons_of_mem _ hx))
            intro x hx
            rcases List.mem_cons.1 hx with rfl | hx
            · exact hdn
            · exact this x hx
        have hall := key l base hF hfl hbl (fun d hd => List.mem_append.1 (h2.mem_iff.2 (hl.mem_iff.1 hd)))
        obtain ⟨d, hd⟩ := List.exists_mem_of_ne_nil _ ha
        exact hall d (hl.mem_iff.2 (h2.mem_iff.1 (List.mem_append_right _ hd))) hd

theorem reached_start (base : Ctx V) (defs : List (PDef V)) : Reached ap base defs ⟨base, fun _ => none, defs.map (fun d => (d, false))⟩ :=
  ⟨[], .nil _, by simp [unchecked_start], by simp⟩

end ParaFunc

open ParaFunc Spec
variable {V : Type} {ap : V → V → Except PyErr V}

/-- **C40**, termination: for every section `parafunc` the loop ends after at most as many passes as there are entries, plus one. -/
theorem C40_terminates (base : Ctx V) (defs : List (PDef V)) :
    ∃ r, ∀ fuel, defs.length + 2 ≤ fuel → resolve ap fuel base defs = some r := by
  have h := loop_terminates (ap := ap) (defs.length + 2) ⟨base, fun _ => none, defs.map (fun d => (d, false))⟩ (by simp [unchecked_start])
  obtain ⟨r, hr⟩ := Option.isSome_iff_exists.1 h
  exact ⟨r.map RState.ss, fun fuel hf => by unfold resolve; rw [loop_fuel hf _ _ _ hr]; rfl⟩

theorem resolve_iff {base : Ctx V} {defs : List (PDef V)} (hf : Fresh base defs) (fuel : Nat) (hfuel : defs.length + 2 ≤ fuel) (ss : Ctx V) :
    resolve ap fuel base defs = some (.ok ss) ↔
      ∃ l F, l.Perm defs ∧ Runs ap base l F ∧ ss = fun n => if n ∈ defs.map PDef.name then F n else none := by
  have hfin : ∀ st', loop ap fuel true ⟨base, fun _ => none, defs.map (fun d => (d, false))⟩ = some (.ok st') →
      ∃ l, l.Perm defs ∧ Runs ap base l st'.ctx ∧ st'.ss = fun n => if n ∈ defs.map PDef.name then st'.ctx n else none := by
    intro st' h
    obtain ⟨⟨done, h1, h2, h3⟩, hu⟩ := loop_sound hf fuel true _ st' (reached_start base defs) h
    rw [hu, List.append_nil] at h2
    refine ⟨done, h2, h1, ?_⟩
    funext n
    rw [h3 n]
    have : n ∈ done.map PDef.name ↔ n ∈ defs.map PDef.name := (h2.map PDef.name).mem_iff
    simp only [this]
  constructor
  · intro h
    unfold resolve at h
    cases hl : loop ap fuel true ⟨base, fun _ => none, defs.map (fun d => (d, false))⟩ with
    | none => rw [hl] at h; cases h
    | some r =>
      rw [hl] at h
      cases r with
      | error e => cases h
      | ok st' =>
        simp only [Option.map_some, Except.map, Option.some.injEq, Except.ok.injEq] at h
        subst h
        obtain ⟨l, h1, h2, h3⟩ := hfin st' hl
        exact ⟨l, _, h1, h2, h3⟩
  · rintro ⟨l, F, hp, hr, rfl⟩
    obtain ⟨st', h1, h2⟩ := loop_complete hf hp hr fuel ⟨base, fun _ => none, defs.map (fun d => (d, false))⟩ (reached_start base defs)
      (Runs.le hr (hf.perm hp)) (by simp [unchecked_start]; omega)
    obtain ⟨l', g1, g2, g3⟩ := hfin st' h1
    unfold resolve
    rw [h1]
    simp only [Option.map_some, Except.map, Option.some.injEq, Except.ok.injEq]
    rw [g3]
    funext n
    split
    · rename_i hn
      obtain ⟨v, hv⟩ := Runs.known g2 n ((g1.map PDef.name).mem_iff.2 hn)
      rw [hv, h2 _ _ hv]
    · rfl

/-- With functions that never fail, evaluating needs exactly the names to be known. -/
theorem eval_ok_iff (hap : ∀ f a, ∃ v, ap f a = .ok v) (c : Ctx V) (e : PE V) : (∃ v, e.eval ap c = .ok v) ↔ ∀ n ∈ e.names, c n ≠ none := by
  induction e with
  | lit v => simp [PE.eval, PE.names]
  | name n =>
    simp only [PE.eval, PE.names, List.mem_singleton, forall_eq]
    cases c n <;> simp
  | app f a ihf iha =>
    simp only [PE.eval, PE.names, List.mem_append]
    constructor
    · rintro ⟨v, h⟩ n hn
      cases hfv : f.eval ap c with
      | error e => rw [hfv] at h; cases h
      | ok g =>
        rw [hfv] at h; simp only at h
        cases hav : a.eval ap c with
        | error e => rw [hav] at h; cases h
        | ok x => exact hn.elim (ihf.1 ⟨g, hfv⟩ n) (iha.1 ⟨x, hav⟩ n)
    · intro h
      obtain ⟨g, hg⟩ := ihf.2 (fun n hn => h n (.inl hn))
      obtain ⟨x, hx⟩ := iha.2 (fun n hn => h n (.inr hn))
      obtain ⟨v, hv⟩ := hap g x
      exact ⟨v, by rw [hg, hx]; exact hv⟩

theorem runs_iff_orderable (hap : ∀ f a, ∃ v, ap f a = .ok v) (l : List (PDef V)) :
    ∀ c : Ctx V, (∃ F, Runs ap c l F) ↔ Orderable (fun n => c n ≠ none) l := by
  induction l with
  | nil => intro c; exact ⟨fun _ => .nil _, fun _ => ⟨c, .nil c⟩⟩
  | cons d r ih =>
    intro c
    have hset : ∀ v, (fun n => (c.set d.name v) n ≠ none) = (fun n => c n ≠ none ∨ n = d.name) := by
      intro v; funext n
      unfold Ctx.set
      by_cases hn : n = d.name <;> simp [hn]
    constructor
    · rintro ⟨F, h⟩
      cases h with
      | cons c F d r v hv hr =>
        refine .cons _ _ _ ((eval_ok_iff hap c d.body).1 ⟨v, hv⟩) ?_
        rw [← hset v]
        exact (ih _).1 ⟨F, hr⟩
    · intro h
      cases h with
      | cons _ _ _ hd hr =>
        obtain ⟨v, hv⟩ := (eval_ok_iff hap c d.body).2 hd
        rw [← hset v] at hr
        obtain ⟨F, hF⟩ := (ih _).2 hr
        exact ⟨F, .cons _ _ _ _ v hv hF⟩

/-- **C40** (for entries whose names are not those of parameters or functions), acceptance: the section is accepted iff its entries can be
ordered such that each one only refers to parameters, functions and earlier entries. -/
theorem C40_accepted_partial (hap : ∀ f a, ∃ v, ap f a = .ok v) (base : Ctx V) (defs : List (PDef V)) (hnd : (defs.map PDef.name).Nodup)
    (hbase : ∀ d ∈ defs, base d.name = none) (fuel : Nat) (hfuel : defs.length + 2 ≤ fuel) :
    (∃ ss, resolve ap fuel base defs = some (.ok ss)) ↔ ∃ l : List (PDef V), l.Perm defs ∧ Orderable (fun n => base n ≠ none) l := by
  constructor
  · rintro ⟨ss, h⟩
    obtain ⟨l, F, h1, h2, _⟩ := (resolve_iff ⟨hnd, hbase⟩ fuel hfuel ss).1 h
    exact ⟨l, h1, (runs_iff_orderable hap l base).1 ⟨F, h2⟩⟩
  · rintro ⟨l, h1, h2⟩
    obtain ⟨F, hF⟩ := (runs_iff_orderable hap l base).2 h2
    exact ⟨_, (resolve_iff ⟨hnd, hbase⟩ fuel hfuel _).2 ⟨l, F, h1, hF, rfl⟩⟩

/-- **C40** (same restriction), values: every order in which the entries can be evaluated gives the values that are found, also with functions that
may fail. -/
theorem C40_values_partial (base : Ctx V) (defs : List (PDef V)) (hnd : (defs.map PDef.name).Nodup)
    (hbase : ∀ d ∈ defs, base d.name = none) (fuel : Nat) (hfuel : defs.length + 2 ≤ fuel) (l : List (PDef V)) (hl : l.Perm defs) (F : Ctx V)
    (hF : Runs ap base l F) : ∃ ss, resolve ap fuel base defs = some (.ok ss) ∧ ∀ d ∈ defs, ss d.name = F d.name ∧ ∃ v, F d.name = some v := by
  refine ⟨_, (resolve_iff ⟨hnd, hbase⟩ fuel hfuel _).2 ⟨l, F, hl, hF, rfl⟩, fun d hd => ?_⟩
  have hn : d.name ∈ defs.map PDef.name := List.mem_map_of_mem hd
  exact ⟨by rw [if_pos hn], Runs.known hF _ ((hl.map PDef.name).mem_iff.2 hn)⟩

/-- **C40** (same restriction), order: listing the entries in another order gives the same values. -/
theorem C40_order_partial (base : Ctx V) (defs defs' : List (PDef V)) (hp : defs'.Perm defs) (hnd : (defs.map PDef.name).Nodup)
    (hbase : ∀ d ∈ defs, base d.name = none) (fuel : Nat) (hfuel : defs.length + 2 ≤ fuel) (ss : Ctx V) :
    resolve ap fuel base defs' = some (.ok ss) ↔ resolve ap fuel base defs = some (.ok ss) := by
  have hf : Fresh base defs := ⟨hnd, hbase⟩
  rw [resolve_iff hf fuel hfuel, resolve_iff (hf.perm hp) fuel (by rw [hp.length_eq]; exact hfuel)]
  have : ∀ n, n ∈ defs'.map PDef.name ↔ n ∈ defs.map PDef.name := fun n => (hp.map PDef.name).mem_iff
  simp only [this]
  exact ⟨fun ⟨l, F, h1, h2⟩ => ⟨l, F, h1.trans hp, h2⟩, fun ⟨l, F, h1, h2⟩ => ⟨l, F, h1.trans hp.symm, h2⟩⟩

namespace ParaEx

/-- All functions multiply. -/
def mulAp (f a : Int) : Except PyErr Int := .ok (f * a)

/-- one parameter, `b = 1` -/
def base : Ctx Int := fun n => if n = "b" then some 1 else none

def da : PDef Int := ⟨"a", .app (.lit 3) (.name "b")⟩
def db : PDef Int := ⟨"b", .app (.lit 2) (.name "b")⟩
def dc : PDef Int := ⟨"c", .app (.name "a") (.name "d")⟩
def dd : PDef Int := ⟨"d", .app (.lit 5) (.name "b")⟩

/-- The hypotheses of C40 hold for `c = a*d`, `d = 5*b`, `a = 3*b`, which takes two passes. -/
example : (([dc, dd, da]).map PDef.name).Nodup ∧ (∀ d ∈ [dc, dd, da], base d.name = none) ∧ (∀ f a, ∃ v, mulAp f a = .ok v) ∧
    [da, dd, dc].Perm [dc, dd, da] ∧ Orderable (fun n => base n ≠ none) [da, dd, dc] ∧
    (resolve mulAp 5 base [dc, dd, da]).map (fun r => r.toOption.map (fun ss => psi ss [dc, dd, da])) = some (some [some 15, some 5, some 3]) := by
  refine ⟨by decide, by decide, fun f a => ⟨f * a, rfl⟩, (List.reverse_perm [dc, dd, da]), ?_, by decide +kernel⟩
  refine .cons _ _ _ ?_ (.cons _ _ _ ?_ (.cons _ _ _ ?_ (.nil _))) <;> simp [da, dd, dc, PE.names, base]

end ParaEx

/-- **C40** refuted without the restriction: a parameter function may have the name of a parameter, and then the values depend on the order:
`a = 3*b, b = 2*b` gives another `a` than `b = 2*b, a = 3*b`. -/
theorem C40_order_refuted : ∃ (ap : Int → Int → Except PyErr Int) (base : Ctx Int) (defs defs' : List (PDef Int)) (ss ss' : Ctx Int),
    defs'.Perm defs ∧ (defs.map PDef.name).Nodup ∧ (∀ fuel, 4 ≤ fuel → resolve ap fuel base defs = some (.ok ss) ∧ resolve ap fuel base defs' = some (.ok ss')) ∧
    ss "a" ≠ ss' "a" := by
  have h1 : (resolve ParaEx.mulAp 4 ParaEx.base [ParaEx.da, ParaEx.db]).map (fun r => r.toOption.map (fun ss => ss "a")) = some (some (some 3)) := by decide +kernel
  have h2 : (resolve ParaEx.mulAp 4 ParaEx.base [ParaEx.db, ParaEx.da]).map (fun r => r.toOption.map (fun ss => ss "a")) = some (some (some 6)) := by decide +kernel
  obtain ⟨r1, hr1⟩ := C40_terminates (ap := ParaEx.mulAp) ParaEx.base [ParaEx.da, ParaEx.db]
  obtain ⟨r2, hr2⟩ := C40_terminates (ap := ParaEx.mulAp) ParaEx.base [ParaEx.db, ParaEx.da]
  rw [hr1 4 (by decide)] at h1
  rw [hr2 4 (by decide)] at h2
  cases r1 with
  | error e => simp [Except.toOption] at h1
  | ok ss =>
    cases r2 with
    | error e => simp [Except.toOption] at h2
    | ok ss' =>
      refine ⟨ParaEx.mulAp, ParaEx.base, [ParaEx.da, ParaEx.db], [ParaEx.db, ParaEx.da], ss, ss', List.Perm.swap _ _ _, by decide,
        fun fuel hf => ⟨hr1 fuel hf, hr2 fuel hf⟩, ?_⟩
      simp [Except.toOption] at h1 h2
      rw [h1, h2]; decide

end Pydsge
