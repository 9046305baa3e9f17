import Verif.Props.Params

/-!
# C89: the documented parameter sets; C90: solution and parameters fit; C91: `obs` with parameters
-/

set_option autoImplicit false
set_option linter.unusedSectionVars false
set_option linter.unusedSimpArgs false

namespace Pydsge

open Pydsge.Params

variable {K PP VV HX LS TT QQ : Type}

section
variable [Field K] [LinearOrder K] {S : Solver K PP VV HX LS TT QQ} {D : Decl K} {dr : Draws K} {g : GenArgs} {sq : QQ → QQ}
  {ob : Obj K PP VV HX LS TT QQ}

/-! ## C89 -/

/-- The vector of all parameters in which the estimated ones (`names`) have the values `w` and the others their calibrated values. -/
def Spec.Overlay (D : Decl K) (names : List String) (w : List K) (v : List K) : Prop :=
  v.length = D.names.length ∧
  (∀ (i j : Nat) (s : String), D.names[i]? = some s → names[j]? = some s → v[i]? = w[j]?) ∧
  (∀ (i : Nat) (s : String), D.names[i]? = some s → s ∉ names → v[i]? = D.parFix[i]?)

/-- What the documentation of `get_par` says about the values of the estimated parameter number `j`. -/
def Spec.DocValue (D : Decl K) (p : Prior K) (ob : Obj K PP VV HX LS TT QQ) (set : String) (j : Nat) : Option K :=
  if set = "calib" then (p.names[j]?).bind fun s => D.parFix[D.names.idxOf s]?
  else if set = "prior_mean" then (p.entries[j]?).map fun e => if e.uniform = true then (e.a + e.b) / 2 else e.a
  else if set = "init" then
    (ob.initValue.bind fun l => l[j]?).bind fun o => match o with
      | some x => some x
      | none => (p.names[j]?).bind fun s => D.parFix[D.names.idxOf s]?
  else ob.modeX.bind fun l => l[j]?

/-- The sets with one vector that do not need a chain. -/
def docSets : List String := ["calib", "prior_mean", "init", "mode", "mcmc_mode", "posterior_mode", "post_mode"]

/-- One value per estimated parameter in everything that is stored. -/
structure Fits (p : Prior K) (ob : Obj K PP VV HX LS TT QQ) : Prop where
  entries : p.entries.length = p.names.length
  init : ∀ l, ob.initValue = some l → l.length = p.names.length
  mode : ∀ l, ob.modeX = some l → l.length = p.names.length

theorem overlay_of (h : WF D) (p : Prior K) (hp : D.prior = some p) (w : List K) (hw : w.length = p.names.length) :
    assignPrior D D.parFix (.vec w) = .ok (setMany D.parFix p.arg w) ∧ Spec.Overlay D p.names w (setMany D.parFix p.arg w) := by
  have hb : ∀ i ∈ p.arg, i < D.parFix.length := by rw [h.len]; exact h.bound hp
  have hl : w.length = p.arg.length := by rw [hw, h.argLen hp]
  obtain ⟨_, harg, _⟩ := h.prior p hp
  refine ⟨by simp only [assignPrior, hp]; rw [fancySet_ok _ _ _ hb hl], ?_, ?_, ?_⟩
  · rw [setMany_length, h.len]
  · intro i j s hi hj
    refine setMany_get _ _ _ (h.argNodup hp) hl.symm hb j i ?_
    rw [harg, List.getElem?_map, hj]
    obtain ⟨hi', hi''⟩ := List.getElem?_eq_some_iff.1 hi
    rw [Option.map_some, ← hi'', h.nodup.idxOf_getElem i hi']
  · intro i s hi hs
    refine setMany_get_ne _ _ _ _ ?_
    rw [harg, List.mem_map]
    rintro ⟨s', hs', rfl⟩
    obtain ⟨hi', hi''⟩ := List.getElem?_eq_some_iff.1 hi
    rw [List.getElem_idxOf hi'] at hi''
    exact hs (hi'' ▸ hs')

theorem calib_value (h : WF D) (p : Prior K) (hp : D.prior = some p) :
    ∃ w, fancyGet D.parFix p.arg = .ok w ∧ w.length = p.names.length ∧
      ∀ j : Nat, w[j]? = (p.names[j]?).bind fun s => D.parFix[D.names.idxOf s]? := by
  have hb : ∀ i ∈ p.arg, i < D.parFix.length := by rw [h.len]; exact h.bound hp
  obtain ⟨w, hw, hl, hg⟩ := fancyGet_ok D.parFix p.arg hb
  refine ⟨w, hw, by rw [hl, h.argLen hp], ?_⟩
  obtain ⟨_, harg, _⟩ := h.prior p hp
  intro j
  cases hj : p.names[j]? with
  | none =>
    have : p.names.length ≤ j := List.getElem?_eq_none_iff.1 hj
    rw [List.getElem?_eq_none (by rw [hl, h.argLen hp]; exact this)]
    rfl
  | some s =>
    rw [hg j (D.names.idxOf s) (by rw [harg, List.getElem?_map, hj]; rfl)]
    rfl

/-- The candidate of a documented set. -/
theorem namedSet_doc (h : WF D) (p : Prior K) (hp : D.prior = some p) (ob : Obj K PP VV HX LS TT QQ) (hf : Fits p ob) (s : String)
    (hs : s ∈ docSets) (n : Nat) {ob' : Obj K PP VV HX LS TT QQ} {c : Cand K} (hn : namedSet D dr ob s n = (ob', .ok c)) :
    ∃ w, c = .vec w ∧ w.length = p.names.length ∧ ∀ j : Nat, w[j]? = Spec.DocValue D p ob s j := by
  have hmode : ∀ s, isMode s = true → s ≠ "prior" → s ≠ "post" → s ≠ "posterior" → s ≠ "posterior_mean" → s ≠ "post_mean" → s ≠ "calib" →
      s ≠ "prior_mean" → s ≠ "init" → namedSet D dr ob s n = (ob', .ok c) →
      ∃ w, c = .vec w ∧ w.length = p.names.length ∧ ∀ j : Nat, w[j]? = Spec.DocValue D p ob s j := by
    intro s h1 h2 h3 h4 h5 h6 h7 h8 h9 hn
    unfold namedSet at hn
    simp only [h1, h2, h3, h4, h5, h6, if_true, if_false, or_self] at hn
    cases hm : ob.modeX with
    | none => simp [hm] at hn
    | some v =>
      simp only [hm, Prod.mk.injEq, Except.ok.injEq] at hn
      refine ⟨v, hn.2.symm, hf.mode v hm, ?_⟩
      intro j
      simp [Spec.DocValue, h7, h8, h9, hm]
  simp only [docSets, List.mem_cons, List.not_mem_nil, or_false] at hs
  obtain ⟨w, hw, hwl, hwv⟩ := calib_value h p hp
  rcases hs with rfl | rfl | rfl | rfl | rfl | rfl | rfl
  · unfold namedSet at hn
    simp [isMode, takePrior, hp, hw] at hn
    exact ⟨w, hn.2.symm, hwl, fun j => by simp [Spec.DocValue, hwv]⟩
  · unfold namedSet at hn
    simp [isMode, hp] at hn
    refine ⟨priorMean p, hn.2.symm, by simp [priorMean, hf.entries], fun j => ?_⟩
    simp only [priorMean, List.getElem?_map, Spec.DocValue]
    rw [if_neg (by decide), if_pos trivial]
    congr 1
    funext e
    split_ifs <;> ring
  · unfold namedSet at hn
    cases hi : ob.initValue with
    | none => simp [isMode, hi] at hn
    | some init =>
      cases hd : ob.ndim with
      | none => simp [isMode, hi, hd] at hn
      | some d =>
        simp [isMode, hi, hd, hp, hw] at hn
        refine ⟨fillInit init w, hn.2.symm, by simp [fillInit, hf.init init hi, hwl], fun j => ?_⟩
        simp only [fillInit, List.getElem?_zipWith, Spec.DocValue, hi, hwv]
        rw [if_neg (by decide), if_neg (by decide), if_pos trivial]
        have hlen := hf.init init hi
        cases hj : init[j]? with
        | none =>
          have : p.names[j]? = none := by
            rw [List.getElem?_eq_none_iff] at hj ⊢
            omega
          simp [hj]
        | some o =>
          have hjl := (List.getElem?_eq_some_iff.1 hj).1
          have hnj : j < p.names.length := by omega
          have hx : ∃ x, ((p.names[j]?).bind fun s => D.parFix[D.names.idxOf s]?) = some x := by
            rw [← hwv j]
            exact ⟨_, List.getElem?_eq_getElem (by omega)⟩
          obtain ⟨x, hx⟩ := hx
          rw [hx]
          cases o <;> simp [hj, hx]
  all_goals exact hmode _ (by decide) (by decide) (by decide) (by decide) (by decide) (by decide) (by decide) (by decide) (by decide) hn

/-- **C89 (partial).** `get_par` of a documented set (calibration, prior mean, initial values, mode), if it returns: the estimated parameters
have the documented values, and all others the calibrated ones, whatever the current parameters are.

Missing: `best` (`C89_parameter_sets_refuted`); samples are in `C89_samples_partial`. -/
theorem C89_parameter_sets_partial (h : WF D) (p : Prior K) (hp : D.prior = some p) (hf : Fits p ob) (s : String) (hs : s ∈ docSets)
    (hnot : s ∉ D.names ∧ s ∉ D.pfNames) (v₀ : List K) (hv : ob.a.par = some v₀) (n : Nat) (ob' : Obj K PP VV HX LS TT QQ) (r : ParVal K QQ)
    (hg : getPar S D dr g ob (.str s) none true n = (ob', .ok r)) :
    ∃ w v, r = .vec v ∧ Spec.Overlay D p.names w v ∧ w.length = p.names.length ∧ ∀ j : Nat, w[j]? = Spec.DocValue D p ob s j := by
  have hc : s ≠ "cov_mat" ∧ s ≠ "best" := by
    constructor <;> rintro rfl <;> revert hs <;> decide
  unfold getPar at hg
  simp only [startPars_some hv, List.idxOf?_eq_none_iff.2 hnot.1, List.idxOf?_eq_none_iff.2 hnot.2, hc.1, hc.2, if_false] at hg
  rcases hn : namedSet D dr ob s n with ⟨ob1, res⟩
  cases res with
  | error e => simp [hn] at hg
  | ok c =>
    obtain ⟨w, rfl, hwl, hwv⟩ := namedSet_doc h p hp ob hf s hs n hn
    obtain ⟨h1, h2⟩ := overlay_of h p hp w hwl
    simp only [hn, if_true, fullPar, h1, Prod.mk.injEq, Except.ok.injEq] at hg
    exact ⟨w, _, hg.2.symm, h2, hwl, hwv⟩

theorem mapM_ok {α β : Type} (f : α → Except PyErr β) (f' : α → β) (l : List α) (h : ∀ i ∈ l, f i = .ok (f' i)) :
    l.mapM f = .ok (l.map f') := by
  induction l with
  | nil => rfl
  | cons a l ih =>
    rw [List.mapM_cons, ih fun i hi => h i (by simp [hi]), h a (by simp)]
    rfl

/-- **C89 (partial)**, samples: `get_par('prior', nsamples=n)` and `get_par('posterior', nsamples=n)` return `n` vectors; the estimated parameters
of vector `i` are those of draw `i`, all others have their calibrated values. -/
theorem C89_samples_partial (h : WF D) (p : Prior K) (hp : D.prior = some p) (s : String) (hs : s ∈ ["prior", "post", "posterior"])
    (hnot : s ∉ D.names ∧ s ∉ D.pfNames) (v₀ : List K) (hv : ob.a.par = some v₀) (n : Nat) (m : List (List K))
    (hm : (if s = "prior" then dr.prior n else dr.posterior n) = .ok m) (hlen : n ≤ m.length) (hrow : ∀ w ∈ m, w.length = p.names.length) :
    ∃ ob' rows, getPar S D dr g ob (.str s) none true n = (ob', .ok (.mat rows)) ∧ rows.length = n ∧
      ∀ i < n, ∃ w v, m[i]? = some w ∧ rows[i]? = some v ∧ Spec.Overlay D p.names w v := by
  have hc : s ≠ "cov_mat" ∧ s ≠ "best" := by
    constructor <;> rintro rfl <;> revert hs <;> decide
  have hn : ∃ ob1, namedSet D dr ob s n = (ob1, .ok (.mat m)) := by
    unfold namedSet
    simp only [List.mem_cons, List.not_mem_nil, or_false] at hs
    rcases hs with rfl | rfl | rfl
    · simp only [if_true] at hm
      simp only [if_true, hm]
      exact ⟨_, rfl⟩
    · rw [if_neg (by decide)] at hm
      rw [if_neg (by decide), if_pos (Or.inl rfl), hm]
      exact ⟨_, rfl⟩
    · rw [if_neg (by decide)] at hm
      rw [if_neg (by decide), if_pos (Or.inr rfl), hm]
      exact ⟨_, rfl⟩
  obtain ⟨ob1, hn⟩ := hn
  let f : Nat → List K := fun i => setMany D.parFix p.arg ((m[i]?).getD [])
  have hget : ∀ i < n, ∃ w, m[i]? = some w ∧ w.length = p.names.length := by
    intro i hi
    have him : i < m.length := by omega
    exact ⟨m[i], List.getElem?_eq_getElem him, hrow _ (List.getElem_mem him)⟩
  refine ⟨ob1, (List.range n).map f, ?_, by simp, ?_⟩
  · unfold getPar
    simp only [startPars_some hv, List.idxOf?_eq_none_iff.2 hnot.1, List.idxOf?_eq_none_iff.2 hnot.2, hc.1, hc.2, if_false, hn, if_true, fullPar]
    rw [mapM_ok _ f (List.range n) fun i hi => ?_]
    obtain ⟨w, hw, hwl⟩ := hget i (List.mem_range.1 hi)
    simp only [hw, (overlay_of h p hp w hwl).1, f, Option.getD_some]
  · intro i hi
    obtain ⟨w, hw, hwl⟩ := hget i hi
    refine ⟨w, _, hw, by rw [List.getElem?_map, List.getElem?_range hi, Option.map_some], ?_⟩
    simp only [f, hw, Option.getD_some]
    exact (overlay_of h p hp w hwl).2

end

/-- **C89 (refuted)** for `best`: the mode is known, the parameter `a` (not estimated) has been changed from 0 to 1; `get_par('mode')` has the
calibrated `a`, `get_par('best')` the changed one. -/
theorem C89_parameter_sets_refuted :
    let ob : ParEx.O := { (setPar ParEx.solver ParEx.decl ParEx.draws ⟨none, none, false⟩ id ParEx.solved (.str "a") (some 1)).1 with
      modeX := some [7, 8] }
    (getPar ParEx.solver ParEx.decl ParEx.draws ⟨none, none, false⟩ ob (.str "mode") none true 1).2 = .ok (.vec [0, 8, 7]) ∧
    (getPar ParEx.solver ParEx.decl ParEx.draws ⟨none, none, false⟩ ob (.str "best") none true 1).2 = .ok (.vec [1, 8, 7]) := by
  constructor <;> decide +kernel

/-- The hypotheses of the partial theorems are met. -/
theorem C89_hypotheses_met :
    WF ParEx.decl ∧ Fits (PP := List Rat) (VV := String) (HX := Rat) (LS := Rat) (TT := Rat) (QQ := Rat)
      ⟨["c", "b"], [2, 1], [⟨true, false, 0, 1⟩, ⟨false, false, 1/3, 1⟩]⟩
      { ParEx.solved with initValue := some [none, some 4], ndim := some 2 } ∧
    (getPar ParEx.solver ParEx.decl ParEx.draws ⟨none, none, false⟩
      { ParEx.solved with initValue := some [none, some 4], ndim := some 2 } (.str "init") none true 1).2 = .ok (.vec [0, 4, 1/4]) ∧
    (getPar ParEx.solver ParEx.decl ParEx.draws ⟨none, none, false⟩ ParEx.solved (.str "prior_mean") none true 1).2 =
      .ok (.vec [0, 1/3, 1/2]) ∧
    (getPar ParEx.solver ParEx.decl ParEx.draws ⟨none, none, false⟩ ParEx.solved (.str "prior") none true 1).2 = .ok (.mat [[0, 0, 0]]) := by
  refine ⟨ParEx.wf, ⟨rfl, ?_, ?_⟩, ?_, ?_, ?_⟩
  · intro l hl
    simp only [Option.some.injEq] at hl
    subst hl; rfl
  · intro l hl
    have : ParEx.solved.modeX = none := by rfl
    simp [this] at hl
  all_goals decide +kernel

/-! ## C90 -/

section
variable [Field K] [LinearOrder K] {S : Solver K PP VV HX LS TT QQ} {D : Decl K} {dr : Draws K} {g : GenArgs} {sq : QQ → QQ}
  {ob : Obj K PP VV HX LS TT QQ}

/-- The attributes fit together: the compiled parameters, the bound, the order of variables, the observation matrices, the linear solution, the
tables, and (if there is a filter) its covariance are all those of the current parameters. -/
def Spec.InSync (S : Solver K PP VV HX LS TT QQ) (D : Decl K) (sq : QQ → QQ) (a : Attrs K PP VV HX LS TT QQ) : Prop :=
  ∃ v pp xb lks vv hx ls t, a.par = some v ∧ v.length = D.names.length ∧
    S.pcompile v = .ok pp ∧ a.ppar = some pp ∧ S.xbar v = .ok xb ∧ a.xbar = some xb ∧ xb ≤ 0 ∧ a.lks = some lks ∧
    S.masks pp = .ok (vv, hx) ∧ a.vv = some vv ∧ a.hx = some hx ∧ S.linear pp xb = .ok ls ∧ a.sys = some ls ∧
    S.tables pp xb lks = .ok t ∧ a.tables = some t ∧ ∀ q, a.filterQ = some q → q = sq (S.cov pp)

/-- `gen_sys` for given parameters, when it succeeds: everything but the filter fits. -/
theorem genSysYaml_sync (a : Attrs K PP VV HX LS TT QQ) (v : List K) (hx0 : g.hxOnly = false)
    (h : (genSysYaml S D g a (some v)).2 = none) :
    ∃ pp xb lks vv hx ls t, (genSysYaml S D g a (some v)).1 = ⟨some v, some pp, some xb, some vv, some lks, some hx, some ls, some t, a.filterQ⟩ ∧
      S.pcompile v = .ok pp ∧ S.xbar v = .ok xb ∧ xb ≤ 0 ∧ S.masks pp = .ok (vv, hx) ∧ S.linear pp xb = .ok ls ∧
      S.tables pp xb lks = .ok t := by
  unfold genSysYaml at h ⊢
  simp only at h ⊢
  cases h1 : S.pcompile v with
  | error e => simp [h1] at h
  | ok pp =>
    simp only [h1] at h ⊢
    cases h2 : S.constVar with
    | false => simp [h2] at h
    | true =>
      simp only [h2, Bool.not_true, Bool.false_eq_true, if_false] at h ⊢
      cases h3 : S.xbar v with
      | error e => simp [h3] at h
      | ok xb =>
        simp only [h3] at h ⊢
        by_cases h4 : xb > 0
        · simp [h4] at h
        · simp only [h4, if_false] at h ⊢
          cases h5 : S.mats pp with
          | error e => simp [h5] at h
          | ok _ =>
            simp only [h5] at h ⊢
            cases h6 : GenSys.newLks g.lMax g.kMax a.lks with
            | error e => simp [h6] at h
            | ok lks =>
              simp only [h6] at h ⊢
              cases h7 : S.masks pp with
              | error e => simp [h7] at h
              | ok m =>
                obtain ⟨vv, hx⟩ := m
                simp only [h7, hx0, Bool.false_eq_true, if_false] at h ⊢
                cases h8 : S.linear pp xb with
                | error e => simp [h8] at h
                | ok ls =>
                  simp only [h8] at h ⊢
                  cases h9 : S.tables pp xb lks with
                  | error e => simp [h9] at h
                  | ok t =>
                    simp only [h9] at h ⊢
                    exact ⟨pp, xb, lks, vv, hx, ls, t, rfl, rfl, rfl, not_lt.1 h4, h7, h8, h9⟩

theorem finishSet_sync (h : WF D) {v : List K} (hv : v.length = D.names.length) (hx0 : g.hxOnly = false) {ob' : Obj K PP VV HX LS TT QQ}
    {r : ParVal K QQ} (hf : finishSet S D dr g sq ob v = (ob', .ok r)) : Spec.InSync S D sq ob'.a := by
  obtain ⟨hg, _, _⟩ := finishSet_inv h sq hv hf
  obtain ⟨pp, xb, lks, vv, hx, ls, t, ha, h1, h2, h3, h4, h5, h6⟩ := genSysYaml_sync ob.a v hx0 hg
  unfold finishSet at hf
  rcases hgen : genSysYaml S D g ob.a (some v) with ⟨a, e⟩
  rw [hgen] at hg ha
  simp only at hg ha
  subst hg ha
  simp only [hgen] at hf
  cases hq : ob.a.filterQ with
  | none =>
    simp only [hq] at hf
    rw [getPar_none h (v := v) rfl hv 1, Prod.mk.injEq] at hf
    rw [← hf.1]
    exact ⟨v, pp, xb, lks, vv, hx, ls, t, rfl, hv, h1, rfl, h2, rfl, h3, rfl, h4, rfl, rfl, h5, rfl, h6, rfl, by simp⟩
  | some q =>
    simp only [hq] at hf
    rw [getPar_none h (v := v) rfl hv 1, Prod.mk.injEq] at hf
    rw [← hf.1]
    refine ⟨v, pp, xb, lks, vv, hx, ls, t, rfl, hv, h1, rfl, h2, rfl, h3, rfl, h4, rfl, rfl, h5, rfl, h6, rfl, ?_⟩
    intro q' hq'
    simp only [Option.some.injEq] at hq'
    exact hq'.symm

theorem assignPrior_length {v r : List K} {c : Cand K} (h : assignPrior D v c = .ok r) : r.length = v.length := by
  unfold assignPrior at h
  cases c with
  | mat m => simp at h
  | vec w =>
    cases hp : D.prior with
    | none => simp only [hp] at h; exact bcast_length h
    | some p => simp only [hp] at h; exact fancySet_length h
  | wrapped w =>
    cases hp : D.prior with
    | none => simp only [hp] at h; exact bcast_length h
    | some p => simp only [hp] at h; exact fancySet_length h

theorem fullPar_length {pars r : List K} {n : Nat} {c : Cand K} (h : fullPar (QQ := QQ) D pars n c = .ok (.vec r)) :
    r.length = pars.length := by
  unfold fullPar at h
  cases c with
  | mat m =>
    simp only at h
    split at h <;> simp at h
  | vec w =>
    simp only at h
    cases ha : assignPrior D pars (.vec w) with
    | error e => simp [ha] at h
    | ok v =>
      simp only [ha, Except.ok.injEq, ParVal.vec.injEq] at h
      rw [← h]; exact assignPrior_length ha
  | wrapped w =>
    simp only at h
    cases ha : assignPrior D pars (.wrapped w) with
    | error e => simp [ha] at h
    | ok v =>
      simp only [ha, Except.ok.injEq, ParVal.vec.injEq] at h
      rw [← h]; exact assignPrior_length ha

theorem startPars_length (h : WF D) (ho : ParOK D ob) {ob' : Obj K PP VV HX LS TT QQ} {pars : List K}
    (hs : startPars S D g ob none = (ob', .ok pars)) : pars.length = D.names.length := by
  unfold startPars at hs
  cases hp : ob.a.par with
  | some v =>
    simp only [hp, Prod.mk.injEq, Except.ok.injEq] at hs
    rw [← hs.2]
    exact ho v hp
  | none =>
    simp only [hp] at hs
    rcases hg : genSysYaml S D g ob.a none with ⟨a, e⟩
    have hpar : a.par = some D.parFix := by
      have : (genSysYaml S D g ob.a none).1.par = some D.parFix := genSysYaml_par (S := S) (D := D) (g := g) ob.a D.parFix
      rw [hg] at this
      exact this
    simp only [hg] at hs
    cases e with
    | some e => simp at hs
    | none =>
      simp only [hpar, Prod.mk.injEq, Except.ok.injEq] at hs
      rw [← hs.2]
      exact h.len

/-- A full vector of `get_par` has one entry per parameter. -/
theorem getPar_vec_length (h : WF D) (ho : ParOK D ob) (dummy : Dummy K) {n : Nat} {ob' : Obj K PP VV HX LS TT QQ} {v : List K}
    (hg : getPar S D dr g ob dummy none true n = (ob', .ok (.vec v))) : v.length = D.names.length := by
  unfold getPar at hg
  rcases hs : startPars S D g ob none with ⟨ob1, res⟩
  cases res with
  | error e => simp [hs] at hg
  | ok pars =>
    have hl := startPars_length h ho hs
    simp only [hs, if_true] at hg
    have fin : ∀ (o1 : Obj K PP VV HX LS TT QQ) (pp : List K) (c : Cand K), pp.length = D.names.length →
        (o1, fullPar (QQ := QQ) D pp n c) = (ob', .ok (.vec v)) → v.length = D.names.length := by
      intro o1 pp c hpp hf
      rw [Prod.mk.injEq] at hf
      rw [fullPar_length hf.2, hpp]
    cases dummy with
    | none =>
      simp only at hg
      cases ht : takePrior D pars with
      | ok c => simp only [ht] at hg; exact fin _ _ _ hl hg
      | error e =>
        simp only [ht] at hg
        rcases hb : bestSet D dr ob1 with ⟨o2, res⟩
        cases res with
        | error e => simp [hb] at hg
        | ok c => simp only [hb] at hg; exact fin _ _ _ hl hg
    | vec w =>
      simp only at hg
      split_ifs at hg with h1
      · cases ht : takePrior D w with
        | ok c => simp only [ht] at hg; exact fin _ _ _ hl hg
        | error e => simp [ht] at hg
      · cases hp : D.prior with
        | none => simp [hp] at hg
        | some p =>
          simp only [hp] at hg
          split_ifs at hg with h2
          · exact fin _ _ _ hl hg
          · simp at hg
    | str s =>
      simp only at hg
      cases hi : D.names.idxOf? s with
      | some i =>
        simp only [hi] at hg
        split at hg <;> simp at hg
      | none =>
        simp only [hi] at hg
        cases hi2 : D.pfNames.idxOf? s with
        | some i =>
          simp only [hi2] at hg
          split at hg <;> simp at hg
        | none =>
          simp only [hi2] at hg
          split_ifs at hg with h1 h2
          · split at hg
            · simp at hg
            · split at hg <;> simp at hg
          · rcases hb : bestSet D dr ob1 with ⟨o2, res⟩
            cases res with
            | error e => simp [hb] at hg
            | ok c => simp only [hb] at hg; exact fin _ _ _ hl hg
          · rcases hb : namedSet D dr ob1 s n with ⟨o2, res⟩
            cases res with
            | error e => simp [hb] at hg
            | ok c => simp only [hb] at hg; exact fin _ _ _ h.len hg

/-- After a successful `set_par` everything fits together, whatever was there before. -/
theorem setPar_sync (h : WF D) (ho : ParOK D ob) (dummy : Dummy K) (setpar : Option K) (hx0 : g.hxOnly = false)
    {ob' : Obj K PP VV HX LS TT QQ} {r : ParVal K QQ} (hs : setPar S D dr g sq ob dummy setpar = (ob', .ok r)) :
    Spec.InSync S D sq ob'.a := by
  have via : (match getPar S D dr g ob dummy none true 1 with
      | (ob, .error e) => ((ob, .error e) : Obj K PP VV HX LS TT QQ × Except PyErr (ParVal K QQ))
      | (ob, .ok (.vec v)) => finishSet S D dr g sq ob v
      | (ob, .ok (.scalar _)) => (ob, .error .typeError)
      | (ob, .ok _) => ({ ob with a := { ob.a with par := some [] } }, .error .valueError)) = (ob', .ok r) → Spec.InSync S D sq ob'.a := by
    intro hv
    rcases hg : getPar S D dr g ob dummy none true 1 with ⟨ob1, res⟩
    rw [hg] at hv
    cases res with
    | error e => simp at hv
    | ok x =>
      cases x with
      | vec v => exact finishSet_sync h (getPar_vec_length h ho dummy hg) hx0 hv
      | _ => simp at hv
  have hcl := curPar_length h ho
  unfold setPar at hs
  simp only at hs
  cases setpar with
  | some x =>
    cases dummy with
    | none => simp at hs
    | vec v => simp at hs
    | str s =>
      simp only at hs
      cases hi : D.names.idxOf? s with
      | none => simp [hi] at hs
      | some i =>
        simp only [hi] at hs
        exact finishSet_sync h (by rw [List.length_set, hcl]) hx0 hs
  | none =>
    cases dummy with
    | none => exact via hs
    | vec v =>
      simp only at hs
      split_ifs at hs with h1
      · exact finishSet_sync h (by rw [h1, h.len]) hx0 hs
      · cases hp : D.prior with
        | none => simp [hp] at hs
        | some p =>
          simp only [hp] at hs
          split_ifs at hs with h2
          · cases hf : fancySet (curPar D ob.a) p.arg v with
            | error e => simp [hf] at hs
            | ok w =>
              simp only [hf] at hs
              exact finishSet_sync h (by rw [fancySet_length hf, hcl]) hx0 hs
          · exact via hs
    | str s =>
      simp only at hs
      split_ifs at hs with h1
      · simp at hs
      · cases hp : D.prior with
        | none => simp [hp] at hs
        | some p =>
          simp only [hp] at hs
          split_ifs at hs with h2
          · simp at hs
          · exact via hs

/-- Reading parameters: everything but the named sets and `cov_mat`. -/
def PlainGet (D : Decl K) : Dummy K → Prop
  | .str s => s ∈ D.names ∨ s ∈ D.pfNames ∨ (s ∉ setNames ∧ s ≠ "cov_mat")
  | _ => True

/-- Plain reading changes nothing in the model. -/
theorem getPar_plain (h : WF D) {v : List K} (hv : ob.a.par = some v) (hl : v.length = D.names.length) (dummy : Dummy K) (full : Bool)
    (n : Nat) (hp : PlainGet D dummy) : (getPar S D dr g ob dummy none full n).1 = ob := by
  unfold getPar
  simp only [startPars_some hv]
  cases dummy with
  | none =>
    obtain ⟨c, hc, _, _⟩ := h.take (QQ := QQ) v hl
    simp only [hc]
  | vec w =>
    simp only
    repeat' split
    all_goals rfl
  | str s =>
    simp only
    cases hi : D.names.idxOf? s with
    | some i => rfl
    | none =>
      simp only
      cases hi2 : D.pfNames.idxOf? s with
      | some i => rfl
      | none =>
        rw [List.idxOf?_eq_none_iff] at hi hi2
        have hs : s ∉ setNames ∧ s ≠ "cov_mat" := by
          rcases hp with hp | hp | hp
          · exact absurd hp hi
          · exact absurd hp hi2
          · exact hp
        have hb : s ≠ "best" := by rintro rfl; exact hs.1 (by decide)
        simp only [hs.2, hb, if_false, namedSet_unknown hs.1]

/-- A call of `set_par` or `get_par`. -/
inductive ParOp (K : Type)
  | set (dummy : Dummy K) (setpar : Option K) (g : GenArgs)
  | get (dummy : Dummy K) (full : Bool) (n : Nat) (g : GenArgs)

def ParOp.run (S : Solver K PP VV HX LS TT QQ) (D : Decl K) (dr : Draws K) (sq : QQ → QQ) (ob : Obj K PP VV HX LS TT QQ) :
    ParOp K → Obj K PP VV HX LS TT QQ
  | .set d x g => (setPar S D dr g sq ob d x).1
  | .get d full n g => (getPar S D dr g ob d none full n).1

/-- `set_par` succeeds, and is not called with `get_hx_only`; `get_par` is called for current values only. -/
def ParOp.Fine (S : Solver K PP VV HX LS TT QQ) (D : Decl K) (dr : Draws K) (sq : QQ → QQ) (ob : Obj K PP VV HX LS TT QQ) :
    ParOp K → Prop
  | .set d x g => g.hxOnly = false ∧ ∃ r, (setPar S D dr g sq ob d x).2 = .ok r
  | .get d _ _ _ => PlainGet D d

def AllFine (S : Solver K PP VV HX LS TT QQ) (D : Decl K) (dr : Draws K) (sq : QQ → QQ) :
    Obj K PP VV HX LS TT QQ → List (ParOp K) → Prop
  | _, [] => True
  | ob, op :: ops => op.Fine S D dr sq ob ∧ AllFine S D dr sq (op.run S D dr sq ob) ops

/-- **C90 (partial).** A successful `set_par` (for a name, a vector or a set of parameters) leaves a model in which the compiled parameters, the
bound, the order of variables, the observation matrices, the solution, the tables and the covariance of the filter are all those of the
parameters that `get_par()` returns, whatever state the model was in before; and this remains so through any sequence of further successful
`set_par` and of `get_par` for current values.

Missing: failing `set_par` (C29), `set_par(get_hx_only=True)` and `get_par` of named sets, see `C90_solution_fits_refuted`. -/
theorem C90_solution_fits_partial (h : WF D) (ho : ParOK D ob) (dummy : Dummy K) (setpar : Option K) (hx0 : g.hxOnly = false)
    {ob' : Obj K PP VV HX LS TT QQ} {r : ParVal K QQ} (hs : setPar S D dr g sq ob dummy setpar = (ob', .ok r)) (ops : List (ParOp K))
    (hops : AllFine S D dr sq ob' ops) : Spec.InSync S D sq (ops.foldl (ParOp.run S D dr sq) ob').a := by
  have key : ∀ (ops : List (ParOp K)) (o : Obj K PP VV HX LS TT QQ), Spec.InSync S D sq o.a → AllFine S D dr sq o ops →
      Spec.InSync S D sq (ops.foldl (ParOp.run S D dr sq) o).a := by
    intro ops
    induction ops with
    | nil => intro o hi _; exact hi
    | cons op ops ih =>
      intro o hi hf
      obtain ⟨hf1, hf2⟩ := hf
      refine ih _ ?_ hf2
      obtain ⟨v, hrest⟩ := id hi
      obtain ⟨pp, xb, lks, vv, hx, ls, t, hv, hl, _⟩ := hrest
      cases op with
      | set d x g' =>
        obtain ⟨h0, r', hr⟩ := hf1
        refine setPar_sync (S := S) (dr := dr) (g := g') (ob := o) h ?_ d x h0 (r := r') (Prod.ext rfl hr)
        intro w hw
        rw [hv, Option.some.injEq] at hw
        rw [← hw]; exact hl
      | get d full n g' =>
        rw [show ParOp.run S D dr sq o (.get d full n g') = o from getPar_plain h hv hl d full n hf1]
        exact hi
  exact key ops ob' (setPar_sync h ho dummy setpar hx0 hs) hops

/-! ## C91 -/

theorem genSysYaml_hxOnly (a : Attrs K PP VV HX LS TT QQ) (v : List K) (h : (genSysYaml S D ⟨none, none, true⟩ a (some v)).2 = none) :
    ∃ pp vv hx, S.pcompile v = .ok pp ∧ S.masks pp = .ok (vv, hx) ∧ (genSysYaml S D ⟨none, none, true⟩ a (some v)).1.hx = some hx ∧
      (genSysYaml S D ⟨none, none, true⟩ a (some v)).1.tables = a.tables ∧
      (genSysYaml S D ⟨none, none, true⟩ a (some v)).1.sys = a.sys := by
  unfold genSysYaml at h ⊢
  simp only at h ⊢
  cases h1 : S.pcompile v with
  | error e => simp [h1] at h
  | ok pp =>
    simp only [h1] at h ⊢
    cases h2 : S.constVar with
    | false => simp [h2] at h
    | true =>
      simp only [h2, Bool.not_true, Bool.false_eq_true, if_false] at h ⊢
      cases h3 : S.xbar v with
      | error e => simp [h3] at h
      | ok xb =>
        simp only [h3] at h ⊢
        by_cases h4 : xb > 0
        · simp [h4] at h
        · simp only [h4, if_false] at h ⊢
          cases h5 : S.mats pp with
          | error e => simp [h5] at h
          | ok _ =>
            simp only [h5] at h ⊢
            cases h6 : GenSys.newLks none none a.lks with
            | error e => simp [h6] at h
            | ok lks =>
              simp only [h6] at h ⊢
              cases h7 : S.masks pp with
              | error e => simp [h7] at h
              | ok m =>
                obtain ⟨vv, hx⟩ := m
                simp only [h7, if_true] at h ⊢
                exact ⟨pp, vv, hx, rfl, h7, by trivial, by trivial, by trivial⟩

theorem finishSet_hxOnly (h : WF D) {v : List K} (hv : v.length = D.names.length) {ob' : Obj K PP VV HX LS TT QQ} {r : ParVal K QQ}
    (hf : finishSet S D dr ⟨none, none, true⟩ sq ob v = (ob', .ok r)) :
    ob'.a.par = some v ∧ ob'.a.tables = ob.a.tables ∧ ob'.a.sys = ob.a.sys ∧
      ∃ pp vv hx, S.pcompile v = .ok pp ∧ S.masks pp = .ok (vv, hx) ∧ ob'.a.hx = some hx := by
  obtain ⟨hg, _, hp⟩ := finishSet_inv h sq hv hf
  obtain ⟨pp, vv, hx, h1, h2, h3, h4, h5⟩ := genSysYaml_hxOnly ob.a v hg
  have hpar := genSysYaml_par (S := S) (D := D) (g := ⟨none, none, true⟩) ob.a v
  unfold finishSet at hf
  rcases hgen : genSysYaml S D ⟨none, none, true⟩ ob.a (some v) with ⟨a, e⟩
  rw [hgen] at hg h3 h4 h5 hpar
  simp only at hg h3 h4 h5 hpar
  subst hg
  simp only [hgen] at hf
  refine ⟨hp, ?_⟩
  split at hf
  · rw [getPar_none h (v := v) hpar hv 1, Prod.mk.injEq] at hf
    rw [← hf.1]
    exact ⟨h4, h5, pp, vv, hx, h1, h2, h3⟩
  · rw [getPar_none h (v := v) hpar hv 1, Prod.mk.injEq] at hf
    rw [← hf.1]
    exact ⟨h4, h5, pp, vv, hx, h1, h2, h3⟩

/-- **C91 (partial)** and refutation in general form. `obs(states, pars=pars)` with full parameter vectors, when it returns: the entries are the
observables of each path under the observation matrices of its own parameters. But afterwards the current parameters are the last
ones, while solution and tables are still those from before.

Missing: that the model is left as it was; see `C91_obs_leaves_model_refuted`. -/
theorem C91_obs_leaves_model_partial {X Y : Type} (h : WF D) (app : HX → X → Except PyErr Y) (args : List (X × List K))
    (hlen : ∀ a ∈ args, a.2.length = D.names.length) {ob' : Obj K PP VV HX LS TT QQ} {ys : List Y}
    (ho : obsPars S D dr sq app ob args = (ob', .ok ys)) :
    List.Forall₂ (fun a y => ∃ pp vv hx, S.pcompile a.2 = .ok pp ∧ S.masks pp = .ok (vv, hx) ∧ app hx a.1 = .ok y) args ys ∧
    ob'.a.tables = ob.a.tables ∧ ob'.a.sys = ob.a.sys ∧
    (∀ a, args.getLast? = some a → ob'.a.par = some a.2) ∧ (args = [] → ob' = ob) := by
  induction args generalizing ob ys with
  | nil =>
    simp only [obsPars, Prod.mk.injEq, Except.ok.injEq] at ho
    obtain ⟨rfl, rfl⟩ := ho
    exact ⟨.nil, rfl, rfl, by simp, fun _ => rfl⟩
  | cons a rest ih =>
    obtain ⟨x, par⟩ := a
    have hl : par.length = D.names.length := hlen (x, par) (by simp)
    unfold obsPars at ho
    rcases hs : setPar S D dr ⟨none, none, true⟩ sq ob (.vec par) none with ⟨ob1, res⟩
    cases res with
    | error e => simp [hs] at ho
    | ok r =>
      simp only [hs] at ho
      have hf : finishSet S D dr ⟨none, none, true⟩ sq ob par = (ob1, .ok r) := by
        unfold setPar at hs
        simp only [hl, h.len, if_true] at hs
        exact hs
      obtain ⟨hp, ht, hsys, pp, vv, hx, h1, h2, h3⟩ := finishSet_hxOnly h hl hf
      simp only [h3] at ho
      cases ha : app hx x with
      | error e => simp [ha] at ho
      | ok y =>
        simp only [ha] at ho
        rcases hr : obsPars S D dr sq app ob1 rest with ⟨ob2, res⟩
        cases res with
        | error e => simp [hr] at ho
        | ok ys' =>
          simp only [hr, Prod.mk.injEq, Except.ok.injEq] at ho
          obtain ⟨rfl, rfl⟩ := ho
          obtain ⟨i1, i2, i3, i4, i5⟩ := ih (fun a ha => hlen a (by simp [ha])) hr
          refine ⟨.cons ⟨pp, vv, hx, h1, h2, ha⟩ i1, by rw [i2, ht], by rw [i3, hsys], ?_, by simp⟩
          intro a hlast
          cases rest with
          | nil =>
            simp only [List.getLast?_singleton, Option.some.injEq] at hlast
            subst hlast
            rw [i5 rfl]; exact hp
          | cons b bs =>
            rw [List.getLast?_cons_cons] at hlast
            exact i4 a hlast

end

/-- **C90 (refuted).** After `get_par('calib')` the current parameters are the calibrated ones, but the tables are still those of the parameters
that were set before; the same after `set_par(v, get_hx_only=True)`. -/
theorem C90_solution_fits_refuted :
    let ob := (setPar ParEx.solver ParEx.decl ParEx.draws ⟨none, none, false⟩ id ParEx.solved (.str "b") (some 2)).1
    let ob1 := (getPar ParEx.solver ParEx.decl ParEx.draws ⟨none, none, false⟩ ob (.str "calib") none true 1).1
    let ob2 := (setPar ParEx.solver ParEx.decl ParEx.draws ⟨none, none, true⟩ id ob (.vec [0, 3, 1/4]) none).1
    Spec.InSync ParEx.solver ParEx.decl id ob.a ∧ ¬ Spec.InSync ParEx.solver ParEx.decl id ob1.a ∧
      ¬ Spec.InSync ParEx.solver ParEx.decl id ob2.a := by
  have hok : ParOK ParEx.decl ParEx.solved := by
    intro v hv
    rw [ParEx.solved_par, Option.some.injEq] at hv
    rw [← hv]; rfl
  refine ⟨?_, ?_, ?_⟩
  · refine setPar_sync (dr := ParEx.draws) (g := ⟨none, none, false⟩) (ob := ParEx.solved) (r := .vec [0, 2, 1/4]) ParEx.wf hok (.str "b") (some 2)
      rfl (Prod.ext rfl ?_)
    decide +kernel
  · rintro ⟨v, pp, xb, lks, vv, hx, ls, t, h1, h2, h3, h4, h5, h6, h7, h8, h9, h10, h11, h12, h13, h14, h15, h16⟩
    have hpar : (getPar ParEx.solver ParEx.decl ParEx.draws ⟨none, none, false⟩
      (setPar ParEx.solver ParEx.decl ParEx.draws ⟨none, none, false⟩ id ParEx.solved (.str "b") (some 2)).1 (.str "calib") none true 1).1.a.par =
        some [0, 1/2, 1/4] := by decide +kernel
    have htab : (getPar ParEx.solver ParEx.decl ParEx.draws ⟨none, none, false⟩
      (setPar ParEx.solver ParEx.decl ParEx.draws ⟨none, none, false⟩ id ParEx.solved (.str "b") (some 2)).1 (.str "calib") none true 1).1.a.tables =
        some (9/2) := by decide +kernel
    rw [hpar, Option.some.injEq] at h1
    rw [htab, Option.some.injEq] at h15
    subst h1 h15
    simp only [ParEx.solver, Except.ok.injEq] at h3 h14
    subst h3
    revert h14
    decide +kernel
  · rintro ⟨v, pp, xb, lks, vv, hx, ls, t, h1, h2, h3, h4, h5, h6, h7, h8, h9, h10, h11, h12, h13, h14, h15, h16⟩
    have hpar : (setPar ParEx.solver ParEx.decl ParEx.draws ⟨none, none, true⟩ id
      (setPar ParEx.solver ParEx.decl ParEx.draws ⟨none, none, false⟩ id ParEx.solved (.str "b") (some 2)).1 (.vec [0, 3, 1/4]) none).1.a.par =
        some [0, 3, 1/4] := by decide +kernel
    have htab : (setPar ParEx.solver ParEx.decl ParEx.draws ⟨none, none, true⟩ id
      (setPar ParEx.solver ParEx.decl ParEx.draws ⟨none, none, false⟩ id ParEx.solved (.str "b") (some 2)).1 (.vec [0, 3, 1/4]) none).1.a.tables =
        some (9/2) := by decide +kernel
    rw [hpar, Option.some.injEq] at h1
    rw [htab, Option.some.injEq] at h15
    subst h1 h15
    simp only [ParEx.solver, Except.ok.injEq] at h3 h14
    subst h3
    revert h14
    decide +kernel

/-- **C91 (refuted).** `obs` for two paths with their parameters: the results are right, but the model then has the second parameters and the tables
of the parameters before. -/
theorem C91_obs_leaves_model_refuted :
    let r := obsPars ParEx.solver ParEx.decl ParEx.draws id (fun hx (x : Rat) => .ok (hx * x)) ParEx.solved [(1, [0, 1, 0]), (2, [0, 0, 1/4])]
    r.2 = .ok [2, 1] ∧ ParEx.solved.a.par = some [0, 1/2, 1/4] ∧ r.1.a.par = some [0, 0, 1/4] ∧
      r.1.a.tables = ParEx.solved.a.tables ∧ r.1.a.hx ≠ ParEx.solved.a.hx := by
  refine ⟨?_, ?_, ?_, ?_, ?_⟩ <;> decide +kernel

/-- The hypotheses of C90 are met by a model with a filter. -/
theorem C90_hypotheses_met :
    let ob : ParEx.O := { ParEx.fresh with a := { ParEx.fresh.a with filterQ := some 0 } }
    (setPar ParEx.solver ParEx.decl ParEx.draws ⟨none, none, false⟩ id ob (.vec [1, 1, 1]) none).2 = .ok (.vec [1, 1, 1]) ∧
    (setPar ParEx.solver ParEx.decl ParEx.draws ⟨none, none, false⟩ id ob (.vec [1, 1, 1]) none).1.a.filterQ = some 6 := by
  constructor <;> decide +kernel

end Pydsge
