import Verif.Props.Params

/-!
# C182: the covariances of the shocks do not act on parameters and solution
-/

set_option autoImplicit false
set_option linter.unusedSectionVars false
set_option linter.unusedSimpArgs false

namespace Pydsge
open Params

variable {K PP VV HX LS TT QQ : Type}

namespace Spec

/-- Two states of a model that agree in all attributes but the value of `filter.Q`. -/
def SameButQ (ob ob' : Params.Obj K PP VV HX LS TT QQ) : Prop :=
  ob.a.par = ob'.a.par ∧ ob.a.ppar = ob'.a.ppar ∧ ob.a.xbar = ob'.a.xbar ∧ ob.a.vv = ob'.a.vv ∧ ob.a.lks = ob'.a.lks ∧ ob.a.hx = ob'.a.hx ∧
    ob.a.sys = ob'.a.sys ∧ ob.a.tables = ob'.a.tables ∧ ob.a.filterQ.isSome = ob'.a.filterQ.isSome ∧
    ob.modeX = ob'.modeX ∧ ob.initValue = ob'.initValue ∧ ob.ndim = ob'.ndim

end Spec

namespace CovFree

/-- Another value of `filter.Q`. -/
def setQ (q : Option QQ) (ob : Params.Obj K PP VV HX LS TT QQ) : Params.Obj K PP VV HX LS TT QQ := { ob with a := { ob.a with filterQ := q } }

theorem same_iff (ob ob' : Params.Obj K PP VV HX LS TT QQ) :
    Spec.SameButQ ob ob' ↔ ∃ q, ob' = setQ q ob ∧ q.isSome = ob.a.filterQ.isSome := by
  constructor
  · rintro ⟨h1, h2, h3, h4, h5, h6, h7, h8, h9, h10, h11, h12⟩
    obtain ⟨⟨a1, a2, a3, a4, a5, a6, a7, a8, a9⟩, b, c, d⟩ := ob
    obtain ⟨⟨a1', a2', a3', a4', a5', a6', a7', a8', a9'⟩, b', c', d'⟩ := ob'
    simp only at h1 h2 h3 h4 h5 h6 h7 h8 h9 h10 h11 h12
    subst h1 h2 h3 h4 h5 h6 h7 h8 h10 h11 h12
    exact ⟨a9', rfl, h9.symm⟩
  · rintro ⟨q, rfl, h⟩
    exact ⟨rfl, rfl, rfl, rfl, rfl, rfl, rfl, rfl, h.symm, rfl, rfl, rfl⟩

variable [Field K]

theorem namedSet_setQ (D : Decl K) (dr : Draws K) (ob : Params.Obj K PP VV HX LS TT QQ) (s : String) (n : Nat) (q : Option QQ) :
    namedSet D dr (setQ q ob) s n = (setQ q (namedSet D dr ob s n).1, (namedSet D dr ob s n).2) ∧
      (namedSet D dr ob s n).1.a.filterQ = ob.a.filterQ := by
  obtain ⟨a, m, i, d⟩ := ob
  unfold namedSet setQ
  simp only
  by_cases h1 : s = "prior"
  · simp only [if_pos h1, and_self]
  simp only [if_neg h1]
  by_cases h2 : s = "post" ∨ s = "posterior"
  · simp only [if_pos h2, and_self]
  simp only [if_neg h2]
  by_cases h3 : s = "posterior_mean" ∨ s = "post_mean"
  · simp only [if_pos h3, and_self]
  simp only [if_neg h3]
  by_cases h4 : isMode s = true
  · simp only [if_pos h4]
    cases m <;> exact ⟨rfl, rfl⟩
  simp only [if_neg h4]
  by_cases h5 : s = "calib"
  · simp only [if_pos h5, and_self]
  simp only [if_neg h5]
  by_cases h6 : s = "prior_mean"
  · simp only [if_pos h6]
    cases D.prior <;> exact ⟨rfl, rfl⟩
  simp only [if_neg h6]
  by_cases h7 : s = "adj_prior_mean"
  · simp only [if_pos h7]
    cases D.prior <;> exact ⟨rfl, rfl⟩
  simp only [if_neg h7]
  by_cases h8 : s = "init"
  · simp only [if_pos h8]
    cases i with
    | none => exact ⟨rfl, rfl⟩
    | some i =>
      cases d with
      | none => exact ⟨rfl, rfl⟩
      | some d =>
        cases D.prior with
        | none => exact ⟨rfl, rfl⟩
        | some p =>
          simp only
          cases fancyGet D.parFix p.arg <;> exact ⟨rfl, rfl⟩
  · simp only [if_neg h8, and_self]

theorem bestSet_setQ (D : Decl K) (dr : Draws K) (ob : Params.Obj K PP VV HX LS TT QQ) (q : Option QQ) :
    bestSet D dr (setQ q ob) = (setQ q (bestSet D dr ob).1, (bestSet D dr ob).2) ∧ (bestSet D dr ob).1.a.filterQ = ob.a.filterQ := by
  unfold bestSet
  obtain ⟨h1, h2⟩ := namedSet_setQ D dr ob "mode" 1 q
  rw [h1]
  rcases h : namedSet D dr ob "mode" 1 with ⟨ob1, e | c⟩
  · rw [h] at h2
    simp only at h2 ⊢
    obtain ⟨h3, h4⟩ := namedSet_setQ D dr ob1 "init" 1 q
    exact ⟨h3, h4.trans h2⟩
  · rw [h] at h2
    exact ⟨rfl, h2⟩

variable [LinearOrder K]

theorem genSysYaml_setQ (S : Solver K PP VV HX LS TT QQ) (c : PP → QQ) (D : Decl K) (g : GenArgs) (a : Attrs K PP VV HX LS TT QQ)
    (par : Option (List K)) (q : Option QQ) :
    genSysYaml { S with cov := c } D g { a with filterQ := q } par =
      ({ (genSysYaml S D g a par).1 with filterQ := q }, (genSysYaml S D g a par).2) ∧ (genSysYaml S D g a par).1.filterQ = a.filterQ := by
  have e1 : ∀ (S : Solver K PP VV HX LS TT QQ) a, genSysYaml S D g a par = genSysYaml S D g a (some (par.getD D.parFix)) := by
    intro S a
    cases par <;> rfl
  rw [e1, e1]
  generalize par.getD D.parFix = v
  unfold genSysYaml
  simp only
  cases S.pcompile v with
  | error e => exact ⟨rfl, rfl⟩
  | ok pp =>
    simp only
    cases S.constVar with
    | false => exact ⟨rfl, rfl⟩
    | true =>
      simp only [Bool.not_true, Bool.false_eq_true, if_false]
      cases S.xbar v with
      | error e => exact ⟨rfl, rfl⟩
      | ok xb =>
        simp only
        by_cases hx : xb > 0
        · simp only [if_pos hx, and_self]
        simp only [if_neg hx]
        cases S.mats pp with
        | error e => exact ⟨rfl, rfl⟩
        | ok u =>
          simp only
          cases GenSys.newLks g.lMax g.kMax a.lks with
          | error e => exact ⟨rfl, rfl⟩
          | ok lks =>
            simp only
            cases S.masks pp with
            | error e => exact ⟨rfl, rfl⟩
            | ok vh =>
              simp only
              cases g.hxOnly with
              | true => simp only [if_true, and_self]
              | false =>
                simp only [Bool.false_eq_true, if_false]
                cases S.linear pp xb with
                | error e => exact ⟨rfl, rfl⟩
                | ok ls =>
                  simp only
                  cases S.tables pp xb lks <;> exact ⟨rfl, rfl⟩

theorem startPars_setQ (S : Solver K PP VV HX LS TT QQ) (c : PP → QQ) (D : Decl K) (g : GenArgs) (ob : Params.Obj K PP VV HX LS TT QQ)
    (npar : Option (List K)) (q : Option QQ) :
    startPars { S with cov := c } D g (setQ q ob) npar = (setQ q (startPars S D g ob npar).1, (startPars S D g ob npar).2) ∧
      (startPars S D g ob npar).1.a.filterQ = ob.a.filterQ := by
  have h0 : (setQ q ob).a.par = ob.a.par := rfl
  unfold startPars
  rw [h0]
  cases hp : ob.a.par with
  | some v =>
    simp only [hp, h0]
    cases npar with
    | none => exact ⟨rfl, rfl⟩
    | some w => simp only; split_ifs <;> exact ⟨rfl, rfl⟩
  | none =>
    simp only
    obtain ⟨h1, h2⟩ := genSysYaml_setQ S c D g ob.a none q
    have h1 : genSysYaml { S with cov := c } D g (setQ q ob).a none = _ := h1
    rw [h1]
    generalize genSysYaml S D g ob.a none = X at h2 ⊢
    rcases X with ⟨a, _ | e⟩
    · simp only at h2 ⊢
      cases npar with
      | none => exact ⟨rfl, h2⟩
      | some w => simp only; split_ifs <;> exact ⟨rfl, h2⟩
    · exact ⟨rfl, h2⟩

/-- What `get_par` returns, apart from a covariance matrix. -/
def SameVal : Except PyErr (ParVal K QQ) → Except PyErr (ParVal K QQ) → Prop
  | .ok (.cov _), .ok (.cov _) => True
  | r, r' => r = r'

theorem SameVal.refl (r : Except PyErr (ParVal K QQ)) : SameVal r r := by
  unfold SameVal
  split <;> trivial

theorem getPar_setQ (S : Solver K PP VV HX LS TT QQ) (c : PP → QQ) (D : Decl K) (dr : Draws K) (g : GenArgs) (ob : Params.Obj K PP VV HX LS TT QQ)
    (d : Dummy K) (npar : Option (List K)) (full : Bool) (n : Nat) (q : Option QQ) :
    ((getPar { S with cov := c } D dr g (setQ q ob) d npar full n).1 = setQ q (getPar S D dr g ob d npar full n).1 ∧
      SameVal (getPar S D dr g ob d npar full n).2 (getPar { S with cov := c } D dr g (setQ q ob) d npar full n).2) ∧
      (getPar S D dr g ob d npar full n).1.a.filterQ = ob.a.filterQ := by
  obtain ⟨h1, h2⟩ := startPars_setQ S c D g ob npar q
  unfold getPar
  rw [h1]
  generalize startPars S D g ob npar = X at h2 ⊢
  rcases X with ⟨ob1, e | pars⟩
  · exact ⟨⟨rfl, SameVal.refl _⟩, h2⟩
  · simp only at h2 ⊢
    cases d with
    | none =>
      simp only
      cases takePrior D pars with
      | ok cc => exact ⟨⟨rfl, SameVal.refl _⟩, h2⟩
      | error e =>
        obtain ⟨h3, h4⟩ := bestSet_setQ D dr ob1 q
        simp only
        rw [h3]
        generalize bestSet D dr ob1 = X at h4 ⊢
        rcases X with ⟨ob2, e2 | cc⟩ <;> exact ⟨⟨rfl, SameVal.refl _⟩, h4.trans h2⟩
    | vec v =>
      simp only
      by_cases hv : v.length = D.parFix.length
      · simp only [if_pos hv]
        cases takePrior D v <;> exact ⟨⟨rfl, SameVal.refl _⟩, h2⟩
      · simp only [if_neg hv]
        cases D.prior with
        | none => exact ⟨⟨rfl, SameVal.refl _⟩, h2⟩
        | some p =>
          by_cases hp : v.length = p.arg.length
          · simp only [if_pos hp]
            exact ⟨⟨trivial, SameVal.refl _⟩, h2⟩
          · simp only [if_neg hp]
            exact ⟨⟨trivial, SameVal.refl _⟩, h2⟩
    | str s =>
      simp only
      cases D.names.idxOf? s with
      | some i => exact ⟨⟨rfl, SameVal.refl _⟩, h2⟩
      | none =>
        simp only
        cases D.pfNames.idxOf? s with
        | some i => exact ⟨⟨rfl, SameVal.refl _⟩, h2⟩
        | none =>
          simp only
          by_cases s1 : s = "cov_mat"
          · simp only [if_pos s1]
            obtain ⟨h3, h4⟩ := genSysYaml_setQ S c D g ob1.a (some pars) q
            have h3 : genSysYaml { S with cov := c } D g (setQ q ob1).a (some pars) = _ := h3
            rw [h3]
            generalize genSysYaml S D g ob1.a (some pars) = X at h4 ⊢
            rcases X with ⟨a, _ | e⟩
            · obtain ⟨a1, a2, a3, a4, a5, a6, a7, a8, a9⟩ := a
              simp only at h4 ⊢
              cases a2 with
              | none => exact ⟨⟨rfl, rfl⟩, h4.trans h2⟩
              | some pp => exact ⟨⟨rfl, trivial⟩, h4.trans h2⟩
            · exact ⟨⟨rfl, SameVal.refl _⟩, h4.trans h2⟩
          simp only [if_neg s1]
          by_cases s2 : s = "best"
          · simp only [if_pos s2]
            obtain ⟨h3, h4⟩ := bestSet_setQ D dr ob1 q
            rw [h3]
            generalize bestSet D dr ob1 = X at h4 ⊢
            rcases X with ⟨ob2, e2 | cc⟩ <;> exact ⟨⟨rfl, SameVal.refl _⟩, h4.trans h2⟩
          · simp only [if_neg s2]
            obtain ⟨h3, h4⟩ := namedSet_setQ D dr ob1 s n q
            rw [h3]
            generalize namedSet D dr ob1 s n = X at h4 ⊢
            rcases X with ⟨ob2, e2 | cc⟩ <;> exact ⟨⟨rfl, SameVal.refl _⟩, h4.trans h2⟩

/-- Not a covariance matrix: then the same value. -/
theorem SameVal.eq {r r' : Except PyErr (ParVal K QQ)} (h : SameVal r r') (hn : ∀ x, r ≠ .ok (.cov x)) : r = r' := by
  unfold SameVal at h
  split at h
  · exact absurd rfl (hn _)
  · exact h

theorem getPar_none_noCov (S : Solver K PP VV HX LS TT QQ) (D : Decl K) (dr : Draws K) (g : GenArgs) (ob : Params.Obj K PP VV HX LS TT QQ)
    (x : QQ) : (getPar S D dr g ob .none none true 1).2 ≠ .ok (.cov x) := by
  have hf : ∀ pars cc, fullPar (QQ := QQ) D pars 1 cc ≠ .ok (.cov x) := by
    intro pars cc
    unfold fullPar
    cases cc with
    | mat m =>
      simp only
      split <;> exact fun h => by cases h
    | vec v =>
      simp only
      split <;> exact fun h => by cases h
    | wrapped v =>
      simp only
      split <;> exact fun h => by cases h
  unfold getPar
  rcases startPars S D g ob none with ⟨ob1, e | pars⟩
  · exact fun h => by cases h
  · simp only
    cases takePrior D pars with
    | ok cc => exact hf _ _
    | error e =>
      simp only
      rcases bestSet D dr ob1 with ⟨ob2, e2 | cc⟩
      · exact fun h => by cases h
      · exact hf _ _

theorem finishSet_setQ (S : Solver K PP VV HX LS TT QQ) (c : PP → QQ) (D : Decl K) (dr : Draws K) (g : GenArgs) (sq sq' : QQ → QQ)
    (ob : Params.Obj K PP VV HX LS TT QQ) (par : List K) (q : Option QQ) (hq : q.isSome = ob.a.filterQ.isSome) :
    Spec.SameButQ (finishSet S D dr g sq ob par).1 (finishSet { S with cov := c } D dr g sq' (setQ q ob) par).1 ∧
      (finishSet S D dr g sq ob par).2 = (finishSet { S with cov := c } D dr g sq' (setQ q ob) par).2 := by
  obtain ⟨h1, h2⟩ := genSysYaml_setQ S c D g ob.a (some par) q
  have h1 : genSysYaml { S with cov := c } D g (setQ q ob).a (some par) = _ := h1
  unfold finishSet
  rw [h1]
  generalize genSysYaml S D g ob.a (some par) = X at h2 ⊢
  rcases X with ⟨a, _ | e⟩
  · simp only at h2 ⊢
    have key : ∀ q1 q2 : Option QQ, q2.isSome = q1.isSome →
        Spec.SameButQ (getPar S D dr ⟨none, none, false⟩ { ob with a := { a with filterQ := q1 } } .none none true 1).1
            (getPar { S with cov := c } D dr ⟨none, none, false⟩ { ob with a := { a with filterQ := q2 } } .none none true 1).1 ∧
          (getPar S D dr ⟨none, none, false⟩ { ob with a := { a with filterQ := q1 } } .none none true 1).2 =
            (getPar { S with cov := c } D dr ⟨none, none, false⟩ { ob with a := { a with filterQ := q2 } } .none none true 1).2 := by
      intro q1 q2 h12
      obtain ⟨⟨k1, k2⟩, k3⟩ := getPar_setQ S c D dr ⟨none, none, false⟩ { ob with a := { a with filterQ := q1 } } .none none true 1 q2
      refine ⟨(same_iff _ _).2 ⟨q2, k1, ?_⟩, k2.eq (fun x => getPar_none_noCov S D dr _ _ x)⟩
      rw [k3]
      exact h12
    obtain ⟨a1, a2, a3, a4, a5, a6, a7, a8, a9⟩ := a
    simp only at h2 key ⊢
    rw [← h2] at hq
    cases a9 with
    | none =>
      cases q with
      | some x => cases hq
      | none => exact key none none rfl
    | some x =>
      cases q with
      | none => cases hq
      | some y =>
        cases a2 with
        | none => exact key (some x) (some y) rfl
        | some pp => exact key (some (sq (S.cov pp))) (some (sq' (c pp))) rfl
  · refine ⟨(same_iff _ _).2 ⟨q, rfl, ?_⟩, rfl⟩
    simp only at h2 ⊢
    rw [h2]
    exact hq

end CovFree

open CovFree

variable [Field K] [LinearOrder K]

/-- C182, certainty equivalence: other covariances of the shocks (and another treatment of them for the filter) make no difference for `set_par`,
whatever its arguments: it returns or raises the same, and leaves the same parameters and the same solution; only `filter.Q` differs. -/
theorem C182_covariances (S : Solver K PP VV HX LS TT QQ) (c : PP → QQ) (D : Decl K) (dr : Draws K) (g : GenArgs) (sq sq' : QQ → QQ)
    (ob ob' : Params.Obj K PP VV HX LS TT QQ) (h : Spec.SameButQ ob ob') (d : Dummy K) (x : Option K) :
    Spec.SameButQ (setPar S D dr g sq ob d x).1 (setPar { S with cov := c } D dr g sq' ob' d x).1 ∧
      (setPar S D dr g sq ob d x).2 = (setPar { S with cov := c } D dr g sq' ob' d x).2 := by
  obtain ⟨q, rfl, hq⟩ := (same_iff _ _).1 h
  have hcur : curPar D (setQ q ob).a = curPar D ob.a := rfl
  have via : ∀ P P' : Params.Obj K PP VV HX LS TT QQ × Except PyErr (ParVal K QQ),
      (P = match getPar S D dr g ob d none true 1 with
        | (ob, .error e) => (ob, .error e)
        | (ob, .ok (.vec v)) => finishSet S D dr g sq ob v
        | (ob, .ok (.scalar _)) => (ob, .error .typeError)
        | (ob, .ok _) => ({ ob with a := { ob.a with par := some [] } }, .error .valueError)) →
      (P' = match getPar { S with cov := c } D dr g (setQ q ob) d none true 1 with
        | (ob, .error e) => (ob, .error e)
        | (ob, .ok (.vec v)) => finishSet { S with cov := c } D dr g sq' ob v
        | (ob, .ok (.scalar _)) => (ob, .error .typeError)
        | (ob, .ok _) => ({ ob with a := { ob.a with par := some [] } }, .error .valueError)) →
      Spec.SameButQ P.1 P'.1 ∧ P.2 = P'.2 := by
    intro P P' hP hP'
    obtain ⟨⟨k1, k2⟩, k3⟩ := getPar_setQ S c D dr g ob d none true 1 q
    rcases hr : getPar S D dr g ob d none true 1 with ⟨ob1, r⟩
    rcases hr' : getPar { S with cov := c } D dr g (setQ q ob) d none true 1 with ⟨ob2, r'⟩
    rw [hr] at hP k1 k2 k3
    rw [hr'] at hP' k1 k2
    simp only at k1 k2 k3 hP hP'
    subst k1
    have hq1 : q.isSome = ob1.a.filterQ.isSome := by rw [k3]; exact hq
    have base : Spec.SameButQ ob1 (setQ q ob1) := (same_iff _ _).2 ⟨q, rfl, hq1⟩
    have base2 : Spec.SameButQ { ob1 with a := { ob1.a with par := some [] } } { setQ q ob1 with a := { (setQ q ob1).a with par := some [] } } :=
      (same_iff _ _).2 ⟨q, rfl, hq1⟩
    by_cases hcov : ∃ y, r = .ok (.cov y)
    · obtain ⟨y, rfl⟩ := hcov
      have : ∃ y', r' = .ok (.cov y') := by
        unfold SameVal at k2
        split at k2
        · next y' _ => exact ⟨_, rfl⟩
        · exact ⟨y, k2.symm⟩
      obtain ⟨y', rfl⟩ := this
      subst hP hP'
      exact ⟨base2, rfl⟩
    · have hrr := k2.eq (fun y hy => hcov ⟨y, hy⟩)
      subst hrr
      cases r with
      | error e => subst hP hP'; exact ⟨base, rfl⟩
      | ok v =>
        cases v with
        | vec v => subst hP hP'; exact finishSet_setQ S c D dr g sq sq' ob1 v q hq1
        | scalar y => subst hP hP'; exact ⟨base, rfl⟩
        | cov y => exact absurd ⟨y, rfl⟩ hcov
        | _ => subst hP hP'; exact ⟨base2, rfl⟩
  unfold setPar
  cases x with
  | none =>
    cases d with
    | none => exact via _ _ rfl rfl
    | vec v =>
      simp only
      split_ifs
      · exact finishSet_setQ S c D dr g sq sq' ob v q hq
      · cases D.prior with
        | none => exact ⟨h, rfl⟩
        | some p =>
          simp only [hcur]
          split_ifs
          · cases fancySet (curPar D ob.a) p.arg v with
            | error e => exact ⟨h, rfl⟩
            | ok par => exact finishSet_setQ S c D dr g sq sq' ob par q hq
          · exact via _ _ rfl rfl
    | str s =>
      simp only
      split_ifs
      · exact ⟨(same_iff _ _).2 ⟨q, rfl, hq⟩, rfl⟩
      · cases D.prior with
        | none => exact ⟨h, rfl⟩
        | some p =>
          simp only
          split_ifs
          · exact ⟨h, rfl⟩
          · exact via _ _ rfl rfl
  | some y =>
    cases d with
    | none => exact ⟨h, rfl⟩
    | vec v => exact ⟨h, rfl⟩
    | str s =>
      simp only
      cases D.names.idxOf? s with
      | none => exact ⟨h, rfl⟩
      | some i =>
        simp only [hcur]
        exact finishSet_setQ S c D dr g sq sq' ob _ q hq

/-- With covariances five times as large and a filter, `set_par('b', 2)` gives the same parameters and solution, and another `filter.Q`. -/
theorem C182_covariances_hypotheses_met :
    let ob : ParEx.O := { ParEx.solved with a := { ParEx.solved.a with filterQ := some 1 } }
    let r := setPar ParEx.solver ParEx.decl ParEx.draws ⟨none, none, false⟩ id ob (.str "b") (some 2)
    let r' := setPar { ParEx.solver with cov := fun pp => 5 * pp.sum } ParEx.decl ParEx.draws ⟨none, none, false⟩ id ob (.str "b") (some 2)
    Spec.SameButQ ob ob ∧ r.1.a.par = some [0, 2, 1/4] ∧ Spec.SameButQ r.1 r'.1 ∧ r.1.a.filterQ = some (9/2) ∧ r'.1.a.filterQ = some (45/2) ∧
      r.2 = .ok (.vec [0, 2, 1/4]) := by
  have h : Spec.SameButQ { ParEx.solved with a := { ParEx.solved.a with filterQ := some 1 } }
      { ParEx.solved with a := { ParEx.solved.a with filterQ := some 1 } } := (same_iff _ _).2 ⟨_, rfl, rfl⟩
  refine ⟨h, ?_, (C182_covariances ParEx.solver _ _ _ _ _ _ _ _ h _ _).1, ?_, ?_, ?_⟩
  all_goals decide +kernel

end Pydsge
