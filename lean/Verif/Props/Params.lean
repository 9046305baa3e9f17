import Verif.Lemmas.Params
import Mathlib.Data.Rat.Defs
import Mathlib.Algebra.Order.Ring.Rat
import Mathlib.Algebra.Order.Field.Rat
import Mathlib.Tactic.NormNum

/-!
# C29 - C35, C73: parameters
-/

set_option autoImplicit false
set_option linter.unusedSectionVars false
set_option linter.unusedSimpArgs false

namespace Pydsge

open Pydsge.Params

variable {K PP VV HX LS TT QQ : Type}

section
variable [Field K] [LinearOrder K] {S : Solver K PP VV HX LS TT QQ} {D : Decl K} {dr : Draws K} {g : GenArgs} {sq : QQ → QQ}
  {ob : Obj K PP VV HX LS TT QQ}

theorem idxOf?_of_mem {l : List String} {s : String} (h : s ∈ l) : ∃ i, l.idxOf? s = some i ∧ l[i]? = some s := by
  cases hi : l.idxOf? s with
  | none => rw [List.idxOf?_eq_none_iff] at hi; exact absurd h hi
  | some i =>
    refine ⟨i, rfl, ?_⟩
    rw [List.idxOf?_eq_some_iff] at hi
    obtain ⟨h1, h2, _⟩ := hi
    rw [List.getElem?_eq_getElem h1]
    simpa using h2

theorem idxOf?_get {l : List String} {s : String} {i : Nat} (h : l.idxOf? s = some i) : l[i]? = some s ∧ i < l.length := by
  rw [List.idxOf?_eq_some_iff] at h
  obtain ⟨h1, h2, _⟩ := h
  exact ⟨by rw [List.getElem?_eq_getElem h1]; simpa using h2, h1⟩

/-- The current parameters of a model have the right length. -/
def ParOK (D : Decl K) (ob : Obj K PP VV HX LS TT QQ) : Prop := ∀ v, ob.a.par = some v → v.length = D.names.length

theorem curPar_length (h : WF D) (ho : ParOK D ob) : (curPar D ob.a).length = D.names.length := by
  unfold curPar
  cases hp : ob.a.par with
  | none => exact h.len
  | some v => exact ho v hp

/-- **C30**: after a successful `set_par(name, value)`: `get_par(name)` is `value`, `get_par` of any other name is what it was, and
`set_par` returned what `get_par()` returns. -/
theorem C30_round_trip (h : WF D) (ho : ParOK D ob) (name : String) (x : K) {ob' : Obj K PP VV HX LS TT QQ} {r : ParVal K QQ}
    (hs : setPar S D dr g sq ob (.str name) (some x) = (ob', .ok r)) (g' : GenArgs) (full : Bool) (n : Nat) :
    name ∈ D.names ∧ ParOK D ob' ∧
    getPar S D dr g' ob' (.str name) none full n = (ob', .ok (.scalar x)) ∧
    (∀ s ∈ D.names, s ≠ name → ∃ y, (∀ v, ob.a.par = some v → getPar S D dr g' ob (.str s) none full n = (ob, .ok (.scalar y))) ∧
      (ob.a.par = none → D.parFix[D.names.idxOf s]? = some y) ∧
      getPar S D dr g' ob' (.str s) none full n = (ob', .ok (.scalar y))) ∧
    getPar S D dr g' ob' .none none true n = (ob', .ok r) := by
  have hcl := curPar_length h ho
  unfold setPar at hs
  simp only at hs
  cases hi : D.names.idxOf? name with
  | none => rw [hi] at hs; simp at hs
  | some i =>
    rw [hi] at hs
    simp only at hs
    obtain ⟨hni, hil⟩ := idxOf?_get hi
    have hlen : ((curPar D ob.a).set i x).length = D.names.length := by rw [List.length_set, hcl]
    obtain ⟨_, hr, hpar⟩ := finishSet_inv h sq hlen hs
    refine ⟨List.mem_of_getElem? hni, ?_, ?_, ?_, ?_⟩
    · intro v hv; rw [hpar] at hv; cases hv; exact hlen
    · exact getPar_name hpar hi (by rw [List.getElem?_set_self (by omega)]) full n
    · intro s hsn hne
      obtain ⟨j, hj, hjn⟩ := idxOf?_of_mem hsn
      have hjl := (idxOf?_get hj).2
      have hij : i ≠ j := by
        rintro rfl; rw [hni] at hjn; simp only [Option.some.injEq] at hjn; exact hne hjn.symm
      have hcj : j < (curPar D ob.a).length := by omega
      refine ⟨(curPar D ob.a)[j], ?_, ?_, ?_⟩
      · intro v hv
        refine getPar_name hv hj ?_ full n
        have : curPar D ob.a = v := by simp only [curPar, hv]
        rw [← this, List.getElem?_eq_getElem hcj]
      · intro hv
        have : curPar D ob.a = D.parFix := by simp only [curPar, hv]
        rw [← this]
        have hji : D.names.idxOf s = j := by
          have h1 := List.idxOf?_eq_some_iff.1 hj
          have := h.nodup.idxOf_getElem j h1.1
          have h2 : D.names[j] = s := by simpa using h1.2.1
          rw [h2] at this
          exact this
        rw [hji, List.getElem?_eq_getElem hcj]
      · refine getPar_name hpar hj ?_ full n
        rw [List.getElem?_set_ne hij, List.getElem?_eq_getElem hcj]
    · rw [hr]; exact getPar_none h hpar hlen n

/-- **C30**, success: `set_par(name, value)` for a declared name succeeds whenever the model can be solved. -/
theorem C30_succeeds (h : WF D) (ho : ParOK D ob) (name : String) (hn : name ∈ D.names) (x : K) (hsol : ∀ v : List K,
      v.length = D.names.length → (genSysYaml S D g ob.a (some v)).2 = none) :
    ∃ ob' r, setPar S D dr g sq ob (.str name) (some x) = (ob', .ok r) := by
  obtain ⟨i, hi, _⟩ := idxOf?_of_mem hn
  have hlen : ((curPar D ob.a).set i x).length = D.names.length := by rw [List.length_set, curPar_length h ho]
  obtain ⟨ob', h1, _⟩ := finishSet_ok (dr := dr) h sq hlen (hsol _ hlen)
  exact ⟨ob', _, by unfold setPar; simp only [hi]; exact h1⟩

/-- **C31**: `set_par(v)` with a full vector sets all parameters to `v`; with a vector of the estimated parameters (when these are
fewer) it sets these, in the order of the prior, and keeps the others. -/
theorem C31_vectors (h : WF D) (ho : ParOK D ob) (v : List K) {ob' : Obj K PP VV HX LS TT QQ} {r : ParVal K QQ}
    (hs : setPar S D dr g sq ob (.vec v) none = (ob', .ok r)) :
    (v.length = D.names.length → r = .vec v ∧ ob'.a.par = some v) ∧
    (∀ p, D.prior = some p → v.length ≠ D.names.length → v.length = p.names.length →
      ∃ v', r = .vec v' ∧ ob'.a.par = some v' ∧ v'.length = D.names.length ∧
        (∀ (j i : Nat) (s : String), p.names[j]? = some s → D.names[i]? = some s → v'[i]? = v[j]?) ∧
        (∀ (i : Nat) (s : String), D.names[i]? = some s → s ∉ p.names →
          (∀ cur, ob.a.par = some cur → v'[i]? = cur[i]?) ∧ (ob.a.par = none → v'[i]? = D.parFix[i]?))) := by
  have hcl := curPar_length h ho
  constructor
  · intro hv
    unfold setPar at hs
    simp only [h.len, hv, if_true] at hs
    obtain ⟨_, h1, h2⟩ := finishSet_inv h sq hv hs
    exact ⟨h1, h2⟩
  · intro p hp hne hv
    have hal : v.length = p.arg.length := by rw [h.argLen hp, hv]
    have hb : ∀ i ∈ p.arg, i < (curPar D ob.a).length := by rw [hcl]; exact h.bound hp
    unfold setPar at hs
    simp only [h.len, hp] at hs
    rw [if_neg hne, if_pos hal, fancySet_ok _ _ _ hb hal] at hs
    simp only at hs
    have hlen : (setMany (curPar D ob.a) p.arg v).length = D.names.length := by rw [setMany_length, hcl]
    obtain ⟨_, h1, h2⟩ := finishSet_inv h sq hlen hs
    obtain ⟨hpn, harg, hsub⟩ := h.prior p hp
    refine ⟨_, h1, h2, hlen, ?_, ?_⟩
    · intro j i s hj hi
      apply setMany_get _ _ _ (h.argNodup hp) hal.symm hb
      rw [harg, List.getElem?_map, hj, Option.map_some, Option.some.injEq]
      obtain ⟨hi', hi''⟩ := List.getElem?_eq_some_iff.1 hi
      rw [← hi'']
      exact h.nodup.idxOf_getElem i hi'
    · intro i s hi hns
      suffices hk : (setMany (curPar D ob.a) p.arg v)[i]? = (curPar D ob.a)[i]? by
        rw [hk]
        unfold curPar
        exact ⟨fun cur hc => by rw [hc], fun hc => by rw [hc]⟩
      apply setMany_get_ne
      rw [harg, List.mem_map]
      rintro ⟨s', hs', rfl⟩
      obtain ⟨hi', hi''⟩ := List.getElem?_eq_some_iff.1 hi
      rw [List.getElem_idxOf hi'] at hi''
      exact hns (hi'' ▸ hs')

/-- **C73** (holds if fewer parameters are estimated than declared, or the order of the prior is the declared order): setting the
vector of estimated parameters that `get_par(full=False)` returns changes nothing. -/
theorem C73_estimated_round_trip_partial (h : WF D) {v : List K} (hv : ob.a.par = some v) (hl : v.length = D.names.length)
    (p : Prior K) (hp : D.prior = some p) (hord : p.names.length ≠ D.names.length ∨ p.names = D.names) {w : List K}
    (hg : getPar S D dr g ob .none none false 1 = (ob, .ok (.cand (.vec w)))) {ob' : Obj K PP VV HX LS TT QQ} {r : ParVal K QQ}
    (hs : setPar S D dr g sq ob (.vec w) none = (ob', .ok r)) : r = .vec v ∧ ob'.a.par = some v := by
  have hb : ∀ i ∈ p.arg, i < v.length := by rw [hl]; exact h.bound hp
  obtain ⟨w', hw, hwl, hwg⟩ := fancyGet_ok v p.arg hb
  have hww : w = w' := by
    unfold getPar at hg
    simp only [startPars_some hv, takePrior, hp, hw, if_false, Bool.false_eq_true, candPar, gt_iff_lt, lt_irrefl, Prod.mk.injEq,
      Except.ok.injEq, ParVal.cand.injEq, Cand.vec.injEq, true_and] at hg
    exact hg.symm
  subst hww
  have hself := setMany_self v p.arg w (h.argNodup hp) hb hwl hwg
  have hcur : curPar D ob.a = v := by simp only [curPar, hv]
  unfold setPar at hs
  simp only [hp, h.len] at hs
  by_cases hlen : w.length = D.names.length
  · rw [if_pos hlen] at hs
    have hpn : p.names = D.names := by
      rcases hord with h1 | h1
      · exact absurd (by rw [← h.argLen hp, ← hwl, hlen]) h1
      · exact h1
    have hwv : w = v := by
      apply List.ext_getElem?
      intro i
      by_cases hi : i < D.names.length
      · apply hwg
        rw [(h.prior p hp).2.1, hpn, List.getElem?_map, List.getElem?_eq_getElem hi, Option.map_some, h.nodup.idxOf_getElem i hi]
      · rw [List.getElem?_eq_none (by omega), List.getElem?_eq_none (by omega)]
    rw [hwv] at hs
    obtain ⟨_, h1, h2⟩ := finishSet_inv h sq hl hs
    exact ⟨h1, h2⟩
  · rw [if_neg hlen, if_pos hwl, hcur, fancySet_ok v p.arg w hb hwl, hself] at hs
    obtain ⟨_, h1, h2⟩ := finishSet_inv h sq hl hs
    exact ⟨h1, h2⟩

/-- **C32** (holds if a prior exists and not all parameters are estimated): `set_par(name, value, npar=v)` returns `v` with exactly the
entry of `name` replaced; `v` is read as the full vector or as the vector of estimated parameters according to its length.  (`setParNpar`
returns a new list and has no access to the model, as the code works on a copy and returns before it touches `self`.) -/
theorem C32_npar_partial (h : WF D) (p : Prior K) (hp : D.prior = some p) (hne : p.names.length ≠ D.names.length) (name : String)
    (hn : name ∈ D.names) (x : K) (v : List K) :
    (v.length = D.names.length → ∃ r, setParNpar D name x v = .ok r ∧ r.length = v.length ∧
      ∀ (i : Nat) (s : String), D.names[i]? = some s → r[i]? = if s = name then some x else v[i]?) ∧
    (v.length = p.names.length → name ∈ p.names → ∃ r, setParNpar D name x v = .ok r ∧ r.length = v.length ∧
      ∀ (i : Nat) (s : String), p.names[i]? = some s → r[i]? = if s = name then some x else v[i]?) ∧
    (v.length = p.names.length → name ∉ p.names → setParNpar D name x v = .error .valueError) := by
  obtain ⟨i, hi, hin⟩ := idxOf?_of_mem hn
  have hil := (idxOf?_get hi).2
  have hset : ∀ (l : List String) (k : Nat), l.Nodup → l[k]? = some name → v.length = l.length →
      ∀ (i : Nat) (s : String), l[i]? = some s → (v.set k x)[i]? = if s = name then some x else v[i]? := by
    intro l k hnd hk hvl i s hs
    obtain ⟨hk1, hk2⟩ := List.getElem?_eq_some_iff.1 hk
    by_cases hs' : s = name
    · subst hs'
      obtain ⟨hi1, hi2⟩ := List.getElem?_eq_some_iff.1 hs
      have : k = i := (hnd.getElem_inj_iff).1 (hk2.trans hi2.symm)
      subst this
      rw [if_pos rfl, List.getElem?_set_self (by omega)]
    · rw [if_neg hs', List.getElem?_set_ne]
      rintro rfl
      rw [hk, Option.some.injEq] at hs
      exact hs' hs.symm
  refine ⟨fun hv => ?_, fun hv hm => ?_, fun hv hm => ?_⟩
  · refine ⟨v.set i x, ?_, by simp, hset D.names i h.nodup hin hv⟩
    unfold setParNpar
    simp only [hi, hp]
    rw [if_neg (by rw [hv, h.argLen hp]; exact hne.symm), if_pos (by omega)]
  · obtain ⟨j, hj, hjn⟩ := idxOf?_of_mem hm
    have hjl := (idxOf?_get hj).2
    refine ⟨v.set j x, ?_, by simp, hset p.names j (h.prior p hp).1 hjn hv⟩
    unfold setParNpar
    simp only [hi, hp]
    rw [if_pos (by rw [hv, h.argLen hp])]
    simp only [hj]
    rw [if_pos (by omega)]
  · unfold setParNpar
    simp only [hi, hp]
    rw [if_pos (by rw [hv, h.argLen hp]), List.idxOf?_eq_none_iff.2 hm]

/-- **C33** (holds if a prior exists and the name is neither as long as the number of parameters nor as the number of estimated
parameters): `set_par` on a named set sets the vector that `get_par` returns for it. -/
theorem C33_named_set_partial (h : WF D) (p : Prior K) (hp : D.prior = some p) (s : String) (h1 : s.length ≠ D.names.length)
    (h2 : s.length ≠ p.names.length) {ob1 : Obj K PP VV HX LS TT QQ} {v : List K} (hv : v.length = D.names.length)
    (hg : getPar S D dr g ob (.str s) none true 1 = (ob1, .ok (.vec v))) (hsol : (genSysYaml S D g ob1.a (some v)).2 = none) :
    ∃ ob', setPar S D dr g sq ob (.str s) none = (ob', .ok (.vec v)) ∧ ob'.a.par = some v := by
  obtain ⟨ob', h3, h4⟩ := finishSet_ok (dr := dr) h sq hv hsol
  refine ⟨ob', ?_, h4⟩
  unfold setPar
  simp only [hp, h.len, hg]
  rw [if_neg h1, if_neg (by rw [h.argLen hp]; exact h2)]
  exact h3

/-- The names of sets of parameters. -/
def setNames : List String :=
  ["best", "prior", "post", "posterior", "posterior_mean", "post_mean", "mode", "mcmc_mode", "mode_mcmc", "posterior_mode", "post_mode",
   "calib", "prior_mean", "adj_prior_mean", "init"]

theorem namedSet_unknown {s : String} (hs : s ∉ setNames) (n : Nat) : namedSet D dr ob s n = (ob, .error .keyError) := by
  simp only [setNames, List.mem_cons, List.not_mem_nil, or_false, not_or] at hs
  obtain ⟨h1, h2, h3, h4, h5, h6, h7, h8, h9, h10, h11, h12, h13, h14, h15⟩ := hs
  unfold namedSet
  simp [h1, h2, h3, h4, h5, h6, h7, h8, h9, h10, h11, h12, h13, h14, h15, isMode]

/-- **C34** (holds for everything but the named sets, and for `cov_mat` without `npar`): `get_par` does not change the current
parameters, whether it returns or raises. -/
theorem C34_get_par_only_reads_partial (h : WF D) {v : List K} (hv : ob.a.par = some v) (hl : v.length = D.names.length)
    (dummy : Dummy K) (npar : Option (List K)) (full : Bool) (n : Nat)
    (hnamed : ∀ s, dummy = .str s → s ∈ D.names ∨ s ∈ D.pfNames ∨ s ∉ setNames)
    (hcov : dummy = .str "cov_mat" → npar = none)
    (hnp : ∀ w, npar = some w → w.length = D.names.length ∨ ∃ p, D.prior = some p) :
    (getPar S D dr g ob dummy npar full n).1.a.par = some v := by
  have hstart : ∃ res, startPars S D g ob npar = (ob, res) ∧ (npar = none → res = .ok v) ∧
      ∀ w, res = .ok w → w.length = D.names.length := by
    unfold startPars
    simp only [hv]
    cases npar with
    | none => exact ⟨_, rfl, fun _ => rfl, fun w hw => by cases hw; exact hl⟩
    | some w =>
      simp only
      split_ifs with hw
      · refine ⟨_, rfl, by simp, ?_⟩
        intro u hu
        rcases hnp w rfl with h1 | ⟨p, hp⟩
        · rw [h.len] at hw; exact absurd h1 hw
        · simp only [assignPrior, hp] at hu
          rw [fancySet_length hu, hl]
      · refine ⟨_, rfl, by simp, ?_⟩
        intro u hu; cases hu
        rw [h.len] at hw; exact not_not.1 hw
  obtain ⟨res, hst, hres, hreslen⟩ := hstart
  unfold getPar
  simp only [hst]
  cases res with
  | error e => exact hv
  | ok pars =>
    simp only
    have hpl := hreslen pars rfl
    cases dummy with
    | none =>
      obtain ⟨c, hc, _, _⟩ := h.take (QQ := QQ) pars hpl
      simp only [hc]
      exact hv
    | vec w =>
      simp only
      repeat' split
      all_goals exact hv
    | str s =>
      simp only
      cases hi : D.names.idxOf? s with
      | some i => exact hv
      | none =>
        simp only
        cases hj : D.pfNames.idxOf? s with
        | some j => exact hv
        | none =>
          simp only
          rw [List.idxOf?_eq_none_iff] at hi hj
          have hs : s ∉ setNames := by
            rcases hnamed s rfl with h1 | h1 | h1
            · exact absurd h1 hi
            · exact absurd h1 hj
            · exact h1
          by_cases hc : s = "cov_mat"
          · rw [if_pos hc]
            have hn := hcov (by rw [hc])
            have hpv : pars = v := by have := hres hn; cases this; rfl
            have := genSysYaml_par (S := S) (D := D) (g := g) ob.a pars
            rcases hgg : genSysYaml S D g ob.a (some pars) with ⟨a, e⟩
            rw [hgg] at this
            cases e with
            | some e => simp only; rw [← hpv]; exact this
            | none => simp only; rw [← hpv]; exact this
          · rw [if_neg hc]
            have hb : s ≠ "best" := by rintro rfl; exact hs (by decide)
            rw [if_neg hb, namedSet_unknown hs]
            exact hv

/-- **C29** (what does hold): if `set_par` raises, the precomputed transition tables are those from before the call. -/
theorem C29_failed_set_par_partial (h : WF D) {v : List K} (hv : ob.a.par = some v) (hl : v.length = D.names.length)
    (dummy : Dummy K) (setpar : Option K) (hcov : dummy ≠ .str "cov_mat") {ob' : Obj K PP VV HX LS TT QQ} {e : PyErr}
    (hs : setPar S D dr g sq ob dummy setpar = (ob', .error e)) : ob'.a.tables = ob.a.tables := by
  have hfin : ∀ (o1 : Obj K PP VV HX LS TT QQ) (w : List K), w.length = D.names.length → o1.a.tables = ob.a.tables →
      ∀ o2 e2, finishSet S D dr g sq o1 w = (o2, .error e2) → o2.a.tables = ob.a.tables := by
    intro o1 w hw ht o2 e2 hf
    cases hg : (genSysYaml S D g o1.a (some w)).2 with
    | none =>
      obtain ⟨o3, h3, _⟩ := finishSet_ok (dr := dr) h sq hw hg
      rw [h3] at hf; simp at hf
    | some e3 =>
      rw [finishSet_err sq hg, Prod.mk.injEq] at hf
      rw [← hf.1]
      show (genSysYaml S D g o1.a (some w)).1.tables = _
      rw [genSysYaml_tables _ _ hg, ht]
  have hnt : ∀ (o1 : Obj K PP VV HX LS TT QQ) s n, (namedSet D dr o1 s n).1.a.tables = o1.a.tables := by
    intro o1 s n
    unfold namedSet
    simp only
    repeat' split
    all_goals rfl
  have hbt : ∀ o1 : Obj K PP VV HX LS TT QQ, (bestSet D dr o1).1.a.tables = o1.a.tables := by
    intro o1
    unfold bestSet
    have h1 := hnt o1 "mode" 1
    split
    · rename_i o2 c hc; rw [hc] at h1; exact h1
    · rename_i o2 e2 hc; rw [hc] at h1; rw [hnt, h1]
  have hal : ∀ (w u : List K) c, w.length = D.names.length → assignPrior D w c = .ok u → u.length = D.names.length := by
    intro w u c hw hu
    unfold assignPrior at hu
    repeat' split at hu
    all_goals first
      | (rw [bcast_length hu, hw]; done)
      | (rw [fancySet_length hu, hw]; done)
      | (cases hu; done)
  have hgt : ∀ o1 r, getPar S D dr g ob dummy none true 1 = (o1, r) → o1.a.tables = ob.a.tables ∧
      ∀ w, r = .ok (.vec w) → w.length = D.names.length := by
    intro o1 r hr
    have hfp : ∀ (w : List K) c u, w.length = D.names.length → fullPar (QQ := QQ) D w 1 c = .ok (.vec u) → u.length = D.names.length := by
      intro w c u hw hu
      unfold fullPar at hu
      split at hu
      · split at hu <;> simp at hu
      · split at hu
        · cases hu
        · rename_i v' hv'
          simp only [Except.ok.injEq, ParVal.vec.injEq] at hu
          subst hu
          exact hal w _ _ hw hv'
    have hpf : D.parFix.length = D.names.length := h.len
    unfold getPar at hr
    simp only [startPars_some hv] at hr
    cases dummy with
    | none =>
      obtain ⟨c, hc, _, hf⟩ := h.take (QQ := QQ) v hl
      simp only [hc, if_true, hf, Prod.mk.injEq] at hr
      obtain ⟨rfl, rfl⟩ := hr
      refine ⟨rfl, ?_⟩
      intro w hw
      simp only [Except.ok.injEq, ParVal.vec.injEq] at hw
      rw [← hw]; exact hl
    | vec w =>
      simp only at hr
      repeat' split at hr
      all_goals (simp only [Prod.mk.injEq] at hr; obtain ⟨rfl, rfl⟩ := hr; refine ⟨rfl, ?_⟩; intro u hu)
      all_goals first
        | (cases hu; done)
        | exact hfp _ _ _ hl hu
    | str s =>
      simp only at hr
      have hc : s ≠ "cov_mat" := fun hc => hcov (by rw [hc])
      cases hi : D.names.idxOf? s with
      | some i =>
        simp only [hi, Prod.mk.injEq] at hr
        obtain ⟨rfl, rfl⟩ := hr
        refine ⟨rfl, fun u hu => ?_⟩
        split at hu <;> simp at hu
      | none =>
        cases hj : D.pfNames.idxOf? s with
        | some j =>
          simp only [hi, hj, Prod.mk.injEq] at hr
          obtain ⟨rfl, rfl⟩ := hr
          refine ⟨rfl, fun u hu => ?_⟩
          split at hu <;> simp at hu
        | none =>
          simp only [hi, hj] at hr
          rw [if_neg hc] at hr
          by_cases hb : s = "best"
          · rw [if_pos hb] at hr
            have hb' := hbt ob
            rcases hbb : bestSet D dr ob with ⟨o3, e3 | c3⟩
            · rw [hbb] at hr hb'
              simp only [Prod.mk.injEq] at hr
              obtain ⟨rfl, rfl⟩ := hr
              exact ⟨hb', fun u hu => by cases hu⟩
            · rw [hbb] at hr hb'
              simp only [Prod.mk.injEq, if_true] at hr
              obtain ⟨rfl, rfl⟩ := hr
              exact ⟨hb', fun u hu => hfp _ _ _ hl hu⟩
          · rw [if_neg hb] at hr
            have hb' := hnt ob s 1
            rcases hbb : namedSet D dr ob s 1 with ⟨o3, e3 | c3⟩
            · rw [hbb] at hr hb'
              simp only [Prod.mk.injEq] at hr
              obtain ⟨rfl, rfl⟩ := hr
              exact ⟨hb', fun u hu => by cases hu⟩
            · rw [hbb] at hr hb'
              simp only [Prod.mk.injEq, if_true] at hr
              obtain ⟨rfl, rfl⟩ := hr
              exact ⟨hb', fun u hu => hfp _ _ _ hpf hu⟩
  have hvia : ∀ o2 e2, (match getPar S D dr g ob dummy none true 1 with
      | (ob, .error e) => (ob, .error e)
      | (ob, .ok (.vec v)) => finishSet S D dr g sq ob v
      | (ob, .ok (.scalar _)) => (ob, .error .typeError)
      | (ob, .ok _) => ({ ob with a := { ob.a with par := some [] } }, .error .valueError)) = (o2, (.error e2 : Except PyErr (ParVal K QQ))) →
      o2.a.tables = ob.a.tables := by
    intro o2 e2 h2
    rcases hgp : getPar S D dr g ob dummy none true 1 with ⟨o3, r3⟩
    obtain ⟨ht, hw⟩ := hgt o3 r3 hgp
    rw [hgp] at h2
    cases r3 with
    | error e3 =>
      simp only [Prod.mk.injEq] at h2
      rw [← h2.1]; exact ht
    | ok r3 =>
      cases r3 with
      | vec w => exact hfin o3 w (hw w rfl) ht o2 e2 h2
      | scalar x => simp only [Prod.mk.injEq] at h2; rw [← h2.1]; exact ht
      | cand c => simp only [Prod.mk.injEq] at h2; rw [← h2.1]; exact ht
      | mat c => simp only [Prod.mk.injEq] at h2; rw [← h2.1]; exact ht
      | cov c => simp only [Prod.mk.injEq] at h2; rw [← h2.1]; exact ht
  have hcur : (curPar D ob.a).length = D.names.length := by simp only [curPar, hv, hl]
  unfold setPar at hs
  simp only at hs
  cases setpar with
  | none =>
    cases dummy with
    | none => exact hvia _ _ hs
    | vec w =>
      simp only at hs
      split_ifs at hs with h1
      · exact hfin ob w (by rw [h1, h.len]) rfl _ _ hs
      · cases hp : D.prior with
        | none => simp only [hp, Prod.mk.injEq] at hs; rw [← hs.1]
        | some p =>
          simp only [hp] at hs
          split_ifs at hs with h2
          · cases hf : fancySet (curPar D ob.a) p.arg w with
            | error e3 => simp only [hf, Prod.mk.injEq] at hs; rw [← hs.1]
            | ok u =>
              simp only [hf] at hs
              exact hfin ob u (by rw [fancySet_length hf, hcur]) rfl _ _ hs
          · exact hvia _ _ hs
    | str s =>
      simp only at hs
      split_ifs at hs with h1
      · simp only [Prod.mk.injEq] at hs; rw [← hs.1]
      · cases hp : D.prior with
        | none => simp only [hp, Prod.mk.injEq] at hs; rw [← hs.1]
        | some p =>
          simp only [hp] at hs
          split_ifs at hs with h2
          · simp only [Prod.mk.injEq] at hs; rw [← hs.1]
          · exact hvia _ _ hs
  | some x =>
    cases dummy with
    | none => simp only [Prod.mk.injEq] at hs; rw [← hs.1]
    | vec w => simp only [Prod.mk.injEq] at hs; rw [← hs.1]
    | str s =>
      simp only at hs
      cases hi : D.names.idxOf? s with
      | none => simp only [hi, Prod.mk.injEq] at hs; rw [← hs.1]
      | some i =>
        simp only [hi] at hs
        exact hfin ob _ (by rw [List.length_set, hcur]) rfl _ _ hs

end

section Box
variable [LinearOrder K]

/-- The messages that `box_check` should print for estimated parameters `v` with bounds `lb`, `ub`. -/
def BoxSpec (names : List String) (lb ub v : List K) (msgs : List (BoxMsg K)) : Prop :=
  (∀ n x l, .low n x l ∈ msgs ↔ ∃ i : Nat, names[i]? = some n ∧ v[i]? = some x ∧ lb[i]? = some l ∧ x < l) ∧
  (∀ n x u, .high n x u ∈ msgs ↔ ∃ i : Nat, names[i]? = some n ∧ v[i]? = some x ∧ ub[i]? = some u ∧ x > u)

theorem ex_succ {P : Nat → Prop} : (∃ i, P i) ↔ P 0 ∨ ∃ i, P (i + 1) :=
  ⟨fun ⟨i, h⟩ => by cases i with | zero => exact .inl h | succ i => exact .inr ⟨i, h⟩,
   fun h => by rcases h with h | ⟨i, h⟩; exacts [⟨0, h⟩, ⟨i + 1, h⟩]⟩

theorem boxLoop_spec (names : List String) (v lb ub : List K) (h1 : names.length ≤ v.length) (h2 : lb.length = names.length)
    (h3 : ub.length = names.length) : ∃ msgs, boxLoop names v lb ub = .ok msgs ∧ BoxSpec names lb ub v msgs := by
  induction names generalizing v lb ub with
  | nil => exact ⟨[], by unfold boxLoop; rfl, by simp [BoxSpec]⟩
  | cons n ns ih =>
    match v, lb, ub, h1, h2, h3 with
    | x :: xs, l :: ls, u :: us, h1, h2, h3 =>
      obtain ⟨msgs, hm, hlow, hhigh⟩ := ih xs ls us (by simpa using h1) (by simpa using h2) (by simpa using h3)
      refine ⟨(if x < l then [.low n x l] else []) ++ (if x > u then [.high n x u] else []) ++ msgs, by simp only [boxLoop, hm], ?_, ?_⟩
      · intro n' x' l'
        rw [ex_succ]
        simp only [List.mem_append, hlow, List.getElem?_cons_zero, List.getElem?_cons_succ, Option.some.injEq]
        by_cases a : x < l <;> by_cases b : x > u <;> simp [a, b] <;> aesop
      · intro n' x' l'
        rw [ex_succ]
        simp only [List.mem_append, hhigh, List.getElem?_cons_zero, List.getElem?_cons_succ, Option.some.injEq]
        by_cases a : x < l <;> by_cases b : x > u <;> simp [a, b] <;> aesop

/-- **C35** (holds for an explicit vector of estimated parameters, and for the default if the estimated parameters are the first
declared ones, in this order): `box_check` reports a parameter iff its value lies outside its bounds. -/
theorem C35_box_check_partial (D : Decl K) (p : Prior K) (hp : D.prior = some p) (lb ub cur : List K) (h2 : lb.length = p.names.length)
    (h3 : ub.length = p.names.length) (hc : cur.length = D.names.length) (hle : p.names.length ≤ D.names.length) :
    (∀ v : List K, v.length = p.names.length → ∃ msgs, boxCheck p.names lb ub cur (some v) = .ok msgs ∧ BoxSpec p.names lb ub v msgs) ∧
    (p.arg = List.range p.names.length → ∃ msgs w, fancyGet cur p.arg = .ok w ∧ boxCheck p.names lb ub cur none = .ok msgs ∧
      BoxSpec p.names lb ub w msgs) := by
  constructor
  · intro v hv
    exact boxLoop_spec p.names v lb ub (by omega) h2 h3
  · intro harg
    obtain ⟨msgs, hm, hlow, hhigh⟩ := boxLoop_spec p.names cur lb ub (by omega) h2 h3
    obtain ⟨w, hw, hwl, hwg⟩ := fancyGet_ok cur p.arg (by rw [harg]; intro i hi; rw [List.mem_range] at hi; omega)
    refine ⟨msgs, w, hw, hm, ?_, ?_⟩
    · intro n x l
      rw [hlow]
      refine exists_congr fun i => ?_
      constructor
      · rintro ⟨a, b, c⟩
        have hi : i < p.names.length := (List.getElem?_eq_some_iff.1 a).1
        exact ⟨a, by rw [hwg i i (by rw [harg, List.getElem?_range hi])]; exact b, c⟩
      · rintro ⟨a, b, c⟩
        have hi : i < p.names.length := (List.getElem?_eq_some_iff.1 a).1
        exact ⟨a, by rw [hwg i i (by rw [harg, List.getElem?_range hi])] at b; exact b, c⟩
    · intro n x l
      rw [hhigh]
      refine exists_congr fun i => ?_
      constructor
      · rintro ⟨a, b, c⟩
        have hi : i < p.names.length := (List.getElem?_eq_some_iff.1 a).1
        exact ⟨a, by rw [hwg i i (by rw [harg, List.getElem?_range hi])]; exact b, c⟩
      · rintro ⟨a, b, c⟩
        have hi : i < p.names.length := (List.getElem?_eq_some_iff.1 a).1
        exact ⟨a, by rw [hwg i i (by rw [harg, List.getElem?_range hi])] at b; exact b, c⟩

end Box

/-! ### A concrete model with three parameters, of which the last two are estimated, and a solver that cannot solve it for `a > 1` -/

namespace ParEx

def decl : Decl Rat where
  names := ["a", "b", "c"]
  parFix := [0, 1/2, 1/4]
  pfNames := ["f"]
  pf := fun v => [v.sum]
  prior := some ⟨["c", "b"], [2, 1], [⟨true, false, 0, 1⟩, ⟨false, false, 1/3, 1⟩]⟩

def solver : Solver Rat (List Rat) String Rat Rat Rat Rat where
  pcompile := fun v => .ok (v ++ [v.sum])
  constVar := true
  xbar := fun _ => .ok (-1)
  vv0 := "v"
  mats := fun _ => .ok ()
  masks := fun pp => .ok ("w", pp.sum)
  linear := fun pp _ => if (pp[0]?).getD 0 > 1 then .error .linAlg else .ok pp.sum
  tables := fun pp _ _ => .ok pp.sum
  cov := fun pp => pp.sum

def draws : Draws Rat := ⟨fun _ => .ok [[0, 0]], fun _ => .error .nameError, .error .nameError, fun n m => List.replicate n (List.replicate m 1)⟩

abbrev O := Obj Rat (List Rat) String Rat Rat Rat Rat

def fresh : O := ⟨⟨none, none, none, none, none, none, none, none, none⟩, none, none, none⟩

/-- the object after `set_par([0, 1/2, 1/4])` -/
def solved : O := (setPar solver decl draws ⟨none, none, false⟩ id fresh (.vec [0, 1/2, 1/4]) none).1

theorem wf : WF decl where
  len := rfl
  nodup := by decide
  prior := by
    intro p hp
    simp only [decl, Option.some.injEq] at hp
    subst hp
    decide

theorem solved_par : solved.a.par = some [0, 1/2, 1/4] := by decide +kernel

/-- `set_par('b', 2)` succeeds and returns the new vector; `get_par('b')` is 2. -/
example : (setPar solver decl draws ⟨none, none, false⟩ id solved (.str "b") (some 2)).1.a.par = some [0, 2, 1/4] := by decide +kernel

/-- a vector of the estimated parameters, in the order `c, b` -/
example : (setPar solver decl draws ⟨none, none, false⟩ id solved (.vec [7, 9]) none).1.a.par = some [0, 9, 7] := by decide +kernel

end ParEx

/-- **C29** refuted: `set_par('a', 2)` raises, and afterwards `get_par('a')` is 2 although the solution is still that for `a = 0`. -/
theorem C29_failed_set_par_refuted :
    let r := setPar ParEx.solver ParEx.decl ParEx.draws ⟨none, none, false⟩ id ParEx.solved (.str "a") (some 2)
    (∃ e, r.2 = .error e) ∧ ParEx.solved.a.par = some [0, 1/2, 1/4] ∧ r.1.a.par = some [2, 1/2, 1/4] ∧
      r.1.a.tables = ParEx.solved.a.tables ∧ r.1.a.hx ≠ ParEx.solved.a.hx := by
  refine ⟨⟨.linAlg, ?_⟩, ?_, ?_, ?_, ?_⟩
  · rfl
  all_goals decide +kernel

/-- **C34** refuted: `get_par('calib')` resets the current parameters to the calibration. -/
theorem C34_get_par_only_reads_refuted :
    let ob := (setPar ParEx.solver ParEx.decl ParEx.draws ⟨none, none, false⟩ id ParEx.solved (.str "b") (some 2)).1
    ob.a.par = some [0, 2, 1/4] ∧
    (getPar ParEx.solver ParEx.decl ParEx.draws ⟨none, none, false⟩ ob (.str "calib") none true 1).1.a.par = some [0, 1/2, 1/4] := by
  constructor <;> decide +kernel

/-- **C33** refuted: for a model with five parameters, `get_par('calib')` returns the calibration but `set_par('calib')` raises
(`len('calib') == 5`); and for a model without priors every name raises. -/
theorem C33_named_set_refuted :
    let d5 : Decl Rat := ⟨["a", "b", "c", "d", "e"], [0, 0, 0, 0, 0], [], fun _ => [], some ⟨["a"], [0], [⟨true, false, 0, 1⟩]⟩⟩
    let d0 : Decl Rat := ⟨["a", "b"], [0, 0], [], fun _ => [], none⟩
    (getPar ParEx.solver d5 ParEx.draws ⟨none, none, false⟩ ParEx.fresh (.str "calib") none true 1).2 = .ok (.vec [0, 0, 0, 0, 0]) ∧
    (setPar ParEx.solver d5 ParEx.draws ⟨none, none, false⟩ id ParEx.fresh (.str "calib") none).2 = .error .typeError ∧
    (getPar ParEx.solver d0 ParEx.draws ⟨none, none, false⟩ ParEx.fresh (.str "calib") none true 1).2 = .ok (.vec [0, 0]) ∧
    (setPar ParEx.solver d0 ParEx.draws ⟨none, none, false⟩ id ParEx.fresh (.str "calib") none).2 = .error .typeError := by
  refine ⟨?_, ?_, ?_, ?_⟩ <;> rfl

example : (setPar ParEx.solver ParEx.decl ParEx.draws ⟨none, none, false⟩ id ParEx.solved (.str "prior_mean") none).1.a.par =
    some [0, 1/3, 1/2] := by decide +kernel

/-- **C32** refuted: with all parameters estimated in another order, editing `a` in a full vector changes the entry of `b`; without
priors it raises. -/
theorem C32_npar_refuted :
    let d : Decl Rat := ⟨["a", "b"], [0, 0], [], fun _ => [], some ⟨["b", "a"], [1, 0], []⟩⟩
    let d0 : Decl Rat := ⟨["a", "b"], [0, 0], [], fun _ => [], none⟩
    WF d ∧ setParNpar d "a" 7 [1, 2] = .ok [1, 7] ∧ setParNpar d0 "a" 7 [1, 2] = .error .typeError := by
  refine ⟨⟨rfl, by decide, ?_⟩, rfl, rfl⟩
  intro p hp
  simp only [Option.some.injEq] at hp
  subst hp
  decide

example : setParNpar ParEx.decl "b" 7 [1, 2, 3] = .ok [1, 7, 3] ∧ setParNpar ParEx.decl "b" 7 [1, 2] = .ok [1, 7] := ⟨rfl, rfl⟩

/-- **C73** refuted: with all parameters estimated in the order `b, a`, feeding the vector of `get_par(full=False)` back to `set_par`
swaps the parameters. -/
theorem C73_estimated_round_trip_refuted :
    let d : Decl Rat := ⟨["a", "b"], [0, 0], [], fun _ => [], some ⟨["b", "a"], [1, 0], []⟩⟩
    let ob := (setPar ParEx.solver d ParEx.draws ⟨none, none, false⟩ id ParEx.fresh (.vec [1/2, 1/3]) none).1
    WF d ∧ ob.a.par = some [1/2, 1/3] ∧
    (getPar ParEx.solver d ParEx.draws ⟨none, none, false⟩ ob .none none false 1).2 = .ok (.cand (.vec [1/3, 1/2])) ∧
    (setPar ParEx.solver d ParEx.draws ⟨none, none, false⟩ id ob (.vec [1/3, 1/2]) none).1.a.par = some [1/3, 1/2] := by
  refine ⟨⟨rfl, by decide, ?_⟩, ?_, ?_, ?_⟩
  · intro p hp
    simp only [Option.some.injEq] at hp
    subst hp
    decide
  all_goals decide +kernel

/-- **C35** refuted for the default: with only `c` estimated (bounds `[-1, 1]`, current value 0), `box_check()` looks at `a`. -/
theorem C35_box_check_refuted :
    let d : Decl Rat := ⟨["a", "c"], [5, 0], [], fun _ => [], some ⟨["c"], [1], []⟩⟩
    boxCheck ["c"] [-1] [1] d.parFix none = .ok [.high "c" 5 1] ∧ fancyGet d.parFix [1] = .ok [0] ∧
    ¬ BoxSpec ["c"] [-1] [1] [(0 : Rat)] [.high "c" 5 1] := by
  refine ⟨by decide +kernel, rfl, ?_⟩
  rintro ⟨_, h⟩
  obtain ⟨i, _, h2, _⟩ := (h "c" 5 1).1 (by simp)
  cases i with
  | zero => simp at h2
  | succ i => simp at h2

end Pydsge
