import Verif.Model.Params
import Mathlib.Data.List.Basic
import Mathlib.Data.List.Nodup

/-! # Lists of parameters -/

set_option autoImplicit false
set_option linter.unusedSectionVars false
set_option linter.unusedSimpArgs false

namespace Pydsge.Params

variable {K PP VV HX LS TT QQ : Type}

theorem setMany_length {α : Type} (v : List α) (arg : List Nat) (w : List α) : (setMany v arg w).length = v.length := by
  induction arg generalizing v w with
  | nil => simp [setMany]
  | cons i is ih =>
    cases w with
    | nil => simp [setMany]
    | cons x xs => simp [setMany, ih]

theorem setMany_get_ne {α : Type} (v : List α) (arg : List Nat) (w : List α) (n : Nat) (h : n ∉ arg) :
    (setMany v arg w)[n]? = v[n]? := by
  induction arg generalizing v w with
  | nil => simp [setMany]
  | cons i is ih =>
    simp only [List.mem_cons, not_or] at h
    cases w with
    | nil => simp [setMany]
    | cons x xs =>
      rw [setMany, ih _ _ h.2, List.getElem?_set_ne (Ne.symm h.1)]

theorem setMany_get {α : Type} (v : List α) (arg : List Nat) (w : List α) (hn : arg.Nodup) (hl : arg.length = w.length)
    (hb : ∀ i ∈ arg, i < v.length) (j i : Nat) (hj : arg[j]? = some i) : (setMany v arg w)[i]? = w[j]? := by
  induction arg generalizing v w j with
  | nil => simp at hj
  | cons a as ih =>
    cases w with
    | nil => simp at hl
    | cons x xs =>
      rw [List.nodup_cons] at hn
      cases j with
      | zero =>
        simp only [List.getElem?_cons_zero, Option.some.injEq] at hj
        subst hj
        rw [setMany, setMany_get_ne _ _ _ _ hn.1, List.getElem?_set_self (hb _ (by simp))]
        rfl
      | succ j =>
        simp only [List.getElem?_cons_succ] at hj ⊢
        rw [setMany]
        exact ih (v.set a x) xs hn.2 (by simpa using hl) (by intro i hi; rw [List.length_set]; exact hb i (by simp [hi])) j hj

theorem fancyGet_ok {α : Type} (v : List α) (arg : List Nat) (hb : ∀ i ∈ arg, i < v.length) :
    ∃ w, fancyGet v arg = .ok w ∧ w.length = arg.length ∧ ∀ j i : Nat, arg[j]? = some i → w[j]? = v[i]? := by
  induction arg with
  | nil => exact ⟨[], rfl, rfl, by simp⟩
  | cons a as ih =>
    obtain ⟨w, hw, hl, hg⟩ := ih (fun i hi => hb i (by simp [hi]))
    have ha := hb a (by simp)
    refine ⟨v[a] :: w, ?_, by simp [hl], ?_⟩
    · unfold fancyGet at hw ⊢
      rw [List.mapM_cons, hw, List.getElem?_eq_getElem ha]
      rfl
    · intro j i hj
      cases j with
      | zero =>
        simp only [List.getElem?_cons_zero, Option.some.injEq] at hj ⊢
        subst hj
        rw [List.getElem?_eq_getElem ha]
      | succ j =>
        simp only [List.getElem?_cons_succ] at hj ⊢
        exact hg j i hj

theorem bcast_self {α : Type} (v : List α) : bcast v.length v = .ok v := by simp [bcast]

theorem bcast_length {α : Type} {n : Nat} {v w : List α} (h : bcast n v = .ok w) : w.length = n := by
  unfold bcast at h
  split_ifs at h with h1
  · cases h; exact h1
  · match v, h with
    | [x], h => simp only [Except.ok.injEq] at h; rw [← h]; simp

theorem fancySet_length {α : Type} {v w r : List α} {arg : List Nat} (h : fancySet v arg w = .ok r) : r.length = v.length := by
  unfold fancySet at h
  split_ifs at h
  split at h
  · cases h
  · cases h; exact setMany_length _ _ _

theorem fancySet_ok {α : Type} (v : List α) (arg : List Nat) (w : List α) (hb : ∀ i ∈ arg, i < v.length) (hl : w.length = arg.length) :
    fancySet v arg w = .ok (setMany v arg w) := by
  have : arg.all (fun x => decide (x < v.length)) = true := by simpa using hb
  unfold fancySet
  rw [if_pos this, ← hl, bcast_self]

/-- Writing back what was read changes nothing. -/
theorem setMany_self {α : Type} (v : List α) (arg : List Nat) (w : List α) (hn : arg.Nodup) (hb : ∀ i ∈ arg, i < v.length)
    (hl : w.length = arg.length) (hg : ∀ j i : Nat, arg[j]? = some i → w[j]? = v[i]?) : setMany v arg w = v := by
  apply List.ext_getElem?
  intro n
  by_cases hm : n ∈ arg
  · obtain ⟨j, hj⟩ := List.getElem?_of_mem hm
    rw [setMany_get v arg w hn hl.symm hb j n hj, hg j n hj]
  · exact setMany_get_ne _ _ _ _ hm

/-- What the parser guarantees: one value per name, names distinct, and estimated parameters are parameters. -/
structure WF (D : Decl K) : Prop where
  len : D.parFix.length = D.names.length
  nodup : D.names.Nodup
  prior : ∀ p, D.prior = some p → p.names.Nodup ∧ p.arg = p.names.map D.names.idxOf ∧ (∀ s ∈ p.names, s ∈ D.names)

theorem WF.bound {D : Decl K} (h : WF D) {p : Prior K} (hp : D.prior = some p) : ∀ i ∈ p.arg, i < D.names.length := by
  obtain ⟨_, h2, h3⟩ := h.prior p hp
  intro i hi
  rw [h2, List.mem_map] at hi
  obtain ⟨s, hs, rfl⟩ := hi
  exact List.idxOf_lt_length_iff.2 (h3 s hs)

theorem WF.argNodup {D : Decl K} (h : WF D) {p : Prior K} (hp : D.prior = some p) : p.arg.Nodup := by
  obtain ⟨h1, h2, h3⟩ := h.prior p hp
  rw [h2]
  refine h1.map_on ?_
  intro a ha b hb hab
  exact (List.idxOf_inj (h3 a ha)).1 hab

theorem WF.argLen {D : Decl K} (h : WF D) {p : Prior K} (hp : D.prior = some p) : p.arg.length = p.names.length := by
  rw [(h.prior p hp).2.1, List.length_map]

/-- `v[arg]` works and writing it back changes nothing. -/
theorem WF.take {D : Decl K} (h : WF D) (v : List K) (hv : v.length = D.names.length) :
    ∃ c, takePrior D v = .ok c ∧ assignPrior D v c = .ok v ∧ ∀ n, fullPar (QQ := QQ) D v n c = .ok (.vec v) := by
  unfold takePrior
  cases hp : D.prior with
  | none =>
    have ha : assignPrior D v (.wrapped v) = .ok v := by simp only [assignPrior, hp, bcast_self]
    exact ⟨.wrapped v, rfl, ha, fun n => by simp only [fullPar, ha]⟩
  | some p =>
    have hb : ∀ i ∈ p.arg, i < v.length := by rw [hv]; exact h.bound hp
    obtain ⟨w, hw, hl, hg⟩ := fancyGet_ok v p.arg hb
    have ha : assignPrior D v (.vec w) = .ok v := by
      simp only [assignPrior, hp]
      rw [fancySet_ok v p.arg w hb hl, setMany_self v p.arg w (h.argNodup hp) hb hl hg]
    exact ⟨.vec w, by simp only [hw], ha, fun n => by simp only [fullPar, ha]⟩

section
variable [Field K] [LinearOrder K] {S : Solver K PP VV HX LS TT QQ} {D : Decl K} {dr : Draws K} {g : GenArgs}
  {ob : Obj K PP VV HX LS TT QQ}

theorem startPars_some {v : List K} (h : ob.a.par = some v) : startPars S D g ob none = (ob, .ok v) := by
  unfold startPars
  simp only [h]

/-- `get_par()` returns the current parameters and changes nothing. -/
theorem getPar_none (h : WF D) {v : List K} (hp : ob.a.par = some v) (hv : v.length = D.names.length) (n : Nat) :
    getPar S D dr g ob .none none true n = (ob, .ok (.vec v)) := by
  obtain ⟨c, h1, _, h2⟩ := h.take (QQ := QQ) v hv
  unfold getPar
  simp only [startPars_some hp, h1, h2, if_true]

theorem getPar_name {v : List K} (hp : ob.a.par = some v) {s : String} {i : Nat} (hs : D.names.idxOf? s = some i) {x : K}
    (hx : v[i]? = some x) (full : Bool) (n : Nat) : getPar S D dr g ob (.str s) none full n = (ob, .ok (.scalar x)) := by
  unfold getPar
  simp only [startPars_some hp, hs, hx]

/-- `self.par` after `gen_sys` with explicit parameters, successful or not. -/
theorem genSysYaml_par (a : Attrs K PP VV HX LS TT QQ) (v : List K) : (genSysYaml S D g a (some v)).1.par = some v := by
  unfold genSysYaml
  simp only
  repeat' split
  all_goals simp_all

/-- A failing `gen_sys` never writes the tables. -/
theorem genSysYaml_tables (a : Attrs K PP VV HX LS TT QQ) (par : Option (List K)) {e : PyErr}
    (h : (genSysYaml S D g a par).2 = some e) : (genSysYaml S D g a par).1.tables = a.tables := by
  unfold genSysYaml at h ⊢
  generalize (match par with | none => D.parFix | some v => v) = v at h ⊢
  revert h
  simp only
  repeat' split
  all_goals intro h
  all_goals first | rfl | (simp_all; done)

theorem genSysYaml_filterQ (a : Attrs K PP VV HX LS TT QQ) (par : Option (List K)) :
    (genSysYaml S D g a par).1.filterQ = a.filterQ := by
  unfold genSysYaml
  generalize (match par with | none => D.parFix | some v => v) = v
  simp only
  repeat' split
  all_goals first | rfl | (simp_all; done)

/-- After a successful `gen_sys`, `ppar` is the compiled parameter vector. -/
theorem genSysYaml_ppar (a : Attrs K PP VV HX LS TT QQ) (v : List K) (h : (genSysYaml S D g a (some v)).2 = none) :
    ∃ pp, S.pcompile v = .ok pp ∧ (genSysYaml S D g a (some v)).1.ppar = some pp := by
  unfold genSysYaml at h ⊢
  simp only at h ⊢
  cases hc : S.pcompile v with
  | error e => simp [hc] at h
  | ok pp =>
    refine ⟨pp, rfl, ?_⟩
    simp only [hc] at h ⊢
    repeat' split
    all_goals simp_all

/-- The end of `set_par`, when `gen_sys` succeeds. -/
theorem finishSet_ok (h : WF D) (sq : QQ → QQ) {v : List K} (hv : v.length = D.names.length)
    (hok : (genSysYaml S D g ob.a (some v)).2 = none) :
    ∃ ob', finishSet S D dr g sq ob v = (ob', .ok (.vec v)) ∧ ob'.a.par = some v := by
  have hpar := genSysYaml_par (S := S) (D := D) (g := g) ob.a v
  unfold finishSet
  rcases hg : genSysYaml S D g ob.a (some v) with ⟨a, e⟩
  rw [hg] at hok hpar
  simp only at hok hpar
  subst hok
  simp only
  split
  · refine ⟨_, getPar_none h ?_ hv 1, ?_⟩ <;> exact hpar
  · refine ⟨_, getPar_none h ?_ hv 1, ?_⟩ <;> exact hpar

theorem finishSet_err (sq : QQ → QQ) {v : List K} {e : PyErr} (hok : (genSysYaml S D g ob.a (some v)).2 = some e) :
    finishSet S D dr g sq ob v = ({ ob with a := (genSysYaml S D g ob.a (some v)).1 }, .error e) := by
  unfold finishSet
  rcases hg : genSysYaml S D g ob.a (some v) with ⟨a, e'⟩
  rw [hg] at hok
  simp only at hok
  subst hok
  rfl

/-- If `set_par` got as far as `gen_sys` and returned, `gen_sys` succeeded. -/
theorem finishSet_inv (h : WF D) (sq : QQ → QQ) {v : List K} (hv : v.length = D.names.length) {ob' : Obj K PP VV HX LS TT QQ}
    {r : ParVal K QQ} (hf : finishSet S D dr g sq ob v = (ob', .ok r)) :
    (genSysYaml S D g ob.a (some v)).2 = none ∧ r = .vec v ∧ ob'.a.par = some v := by
  cases hg : (genSysYaml S D g ob.a (some v)).2 with
  | some e =>
    rw [finishSet_err sq hg] at hf
    simp at hf
  | none =>
    obtain ⟨ob'', h1, h2⟩ := finishSet_ok (dr := dr) h sq hv hg
    rw [h1, Prod.mk.injEq, Except.ok.injEq] at hf
    exact ⟨rfl, hf.2.symm, hf.1 ▸ h2⟩

end
end Pydsge.Params
