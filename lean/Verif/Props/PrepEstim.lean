import Verif.Model.PrepEstim
import Verif.Props.Estim
import Verif.Props.Mcmc
import Verif.Props.Create
import Verif.Props.LastWins

/-!
# C124: `prep_estim` that fails; C125: the density and `set_par`; C126: the density and `extract`; C127: bounds after a linear preparation;
C128: `mcmc` and `prior_sampler` without `prep_estim`
-/

set_option autoImplicit false
set_option linter.unusedSectionVars false
set_option linter.unusedSimpArgs false

namespace Pydsge

open Pydsge.Params Pydsge.Estim Pydsge.Mcmc Pydsge.PrepEstim

variable {K PP VV HX LS TT QQ RS RR CC : Type} [Field K] [LinearOrder K]

/-! ## What `set_par` leaves alone -/

section Keeps
variable {S : Solver K PP VV HX LS TT QQ} {D : Decl K} {dr : Draws K} {g : GenArgs} {sq : QQ → QQ}

/-- The entries that parameters do not touch. -/
def SameMeta (o o' : Obj K PP VV HX LS TT QQ) : Prop := o.ndim = o'.ndim ∧ o.modeX = o'.modeX

theorem namedSet_meta (ob : Obj K PP VV HX LS TT QQ) (s : String) (n : Nat) : SameMeta (namedSet D dr ob s n).1 ob := by
  unfold namedSet
  simp only
  repeat' split
  all_goals exact ⟨rfl, rfl⟩

theorem SameMeta.trans {a b c : Obj K PP VV HX LS TT QQ} (h : SameMeta a b) (h' : SameMeta b c) : SameMeta a c :=
  ⟨h.1.trans h'.1, h.2.trans h'.2⟩

theorem bestSet_meta (ob : Obj K PP VV HX LS TT QQ) : SameMeta (bestSet D dr ob).1 ob := by
  unfold bestSet
  have h1 := namedSet_meta (D := D) (dr := dr) ob "mode" 1
  rcases hb : namedSet D dr ob "mode" 1 with ⟨o, r⟩
  rw [hb] at h1
  cases r with
  | ok c => exact h1
  | error e => exact (namedSet_meta o "init" 1).trans h1

theorem startPars_meta (ob : Obj K PP VV HX LS TT QQ) (npar : Option (List K)) : SameMeta (startPars S D g ob npar).1 ob := by
  unfold startPars
  simp only
  repeat' split
  all_goals exact ⟨rfl, rfl⟩

theorem getPar_meta (ob : Obj K PP VV HX LS TT QQ) (d : Dummy K) (npar : Option (List K)) (full : Bool) (n : Nat) :
    SameMeta (getPar S D dr g ob d npar full n).1 ob := by
  unfold getPar
  have h1 := startPars_meta (S := S) (D := D) (g := g) ob npar
  rcases hb : startPars S D g ob npar with ⟨o1, res⟩
  rw [hb] at h1
  simp only at h1
  have h2 := bestSet_meta (D := D) (dr := dr) o1
  cases res with
  | error e => exact h1
  | ok pars =>
    cases d with
    | none =>
      simp only
      cases takePrior D pars with
      | ok c => exact h1
      | error e =>
        simp only
        rcases hbs : bestSet D dr o1 with ⟨o2, r⟩
        rw [hbs] at h2
        cases r <;> exact h2.trans h1
    | vec v =>
      simp only
      repeat' split
      all_goals exact h1
    | str s =>
      simp only
      cases D.names.idxOf? s with
      | some i => exact h1
      | none =>
        simp only
        cases D.pfNames.idxOf? s with
        | some i => exact h1
        | none =>
          simp only
          by_cases hs : s = "cov_mat"
          · rw [if_pos hs]
            rcases genSysYaml S D g o1.a (some pars) with ⟨a, _ | e⟩ <;> exact ⟨h1.1, h1.2⟩
          · rw [if_neg hs]
            by_cases hs' : s = "best"
            · rw [if_pos hs']
              rcases hbs : bestSet D dr o1 with ⟨o2, r⟩
              rw [hbs] at h2
              cases r <;> exact h2.trans h1
            · rw [if_neg hs']
              have h3 := namedSet_meta (D := D) (dr := dr) o1 s n
              rcases hn : namedSet D dr o1 s n with ⟨o2, r⟩
              rw [hn] at h3
              cases r <;> exact h3.trans h1

theorem finishSet_meta (ob : Obj K PP VV HX LS TT QQ) (v : List K) : SameMeta (finishSet S D dr g sq ob v).1 ob := by
  unfold finishSet
  rcases genSysYaml S D g ob.a (some v) with ⟨a, _ | e⟩
  · exact getPar_meta _ _ _ _ _
  · exact ⟨rfl, rfl⟩

theorem setPar_meta (ob : Obj K PP VV HX LS TT QQ) (d : Dummy K) (x : Option K) : SameMeta (setPar S D dr g sq ob d x).1 ob := by
  have via : SameMeta (match getPar S D dr g ob d none true 1 with
      | (ob, .error e) => ((ob, .error e) : Obj K PP VV HX LS TT QQ × Except PyErr (ParVal K QQ))
      | (ob, .ok (.vec v)) => finishSet S D dr g sq ob v
      | (ob, .ok (.scalar _)) => (ob, .error .typeError)
      | (ob, .ok _) => ({ ob with a := { ob.a with par := some [] } }, .error .valueError)).1 ob := by
    have h1 := getPar_meta (S := S) (D := D) (dr := dr) (g := g) ob d none true 1
    rcases hb : getPar S D dr g ob d none true 1 with ⟨o, r⟩
    rw [hb] at h1
    rcases r with e | (_ | v | _ | _ | _)
    · exact h1
    · exact h1
    · exact (finishSet_meta o v).trans h1
    all_goals exact ⟨h1.1, h1.2⟩
  unfold setPar
  simp only
  cases x with
  | none =>
    simp only
    cases d with
    | none => exact via
    | vec v =>
      simp only
      split_ifs
      · exact finishSet_meta ob v
      · cases hp : D.prior with
        | none => exact ⟨rfl, rfl⟩
        | some p =>
          simp only
          split_ifs
          · cases fancySet (curPar D ob.a) p.arg v with
            | error e => exact ⟨rfl, rfl⟩
            | ok w => exact finishSet_meta ob w
          · exact via
    | str s =>
      simp only
      split_ifs
      · exact ⟨rfl, rfl⟩
      · cases hp : D.prior with
        | none => exact ⟨rfl, rfl⟩
        | some p =>
          simp only
          split_ifs
          · exact ⟨rfl, rfl⟩
          · exact via
  | some x =>
    simp only
    cases d with
    | none => exact ⟨rfl, rfl⟩
    | vec v => exact ⟨rfl, rfl⟩
    | str s =>
      simp only
      cases D.names.idxOf? s with
      | none => exact ⟨rfl, rfl⟩
      | some i => exact finishSet_meta ob _

end Keeps

section Stages
variable {B : Base K PP VV HX LS TT QQ RS RR CC} {s s' : Est K PP VV HX LS TT QQ RS RR CC} {q : Prepared} {x : Args}

/-! ## The stages -/

/-- Everything but the parameters, the solution, the filter and the generator. -/
structure Spec.SameRest (s s' : Est K PP VV HX LS TT QQ RS RR CC) : Prop where
  ndim : s.ob.ndim = s'.ob.ndim
  mode : s.ob.modeX = s'.ob.modeX
  dims : s.dims = s'.dims
  fd : s.fd = s'.fd
  filterR : s.filterR = s'.filterR
  pool : s.pool = s'.pool
  fns : s.fns = s'.fns

theorem Spec.SameRest.refl (s : Est K PP VV HX LS TT QQ RS RR CC) : Spec.SameRest s s := ⟨rfl, rfl, rfl, rfl, rfl, rfl, rfl⟩

theorem Spec.SameRest.trans {a b c : Est K PP VV HX LS TT QQ RS RR CC} (h : Spec.SameRest a b) (h' : Spec.SameRest b c) : Spec.SameRest a c :=
  ⟨h.1.trans h'.1, h.2.trans h'.2, h.3.trans h'.3, h.4.trans h'.4, h.5.trans h'.5, h.6.trans h'.6, h.7.trans h'.7⟩

theorem newFilter_rest (a : Create.Args RR) : Spec.SameRest (newFilter B s a).1 s := by
  unfold newFilter
  rcases Create.createFilter { B.lib with cov := B.S.cov } { s.dims with ppar := s.ob.a.ppar } a with ⟨d, _ | e⟩
  · simp only
    cases d.filter with
    | none => exact .refl _
    | some f => exact ⟨rfl, rfl, rfl, rfl, rfl, rfl, rfl⟩
  · exact .refl _

theorem createFilter_ok {lib : Create.Lib PP QQ} {d d' : Create.Self PP QQ RR} {a : Create.Args RR} (h : Create.createFilter lib d a = (d', none)) :
    ∃ k q, Create.construct lib d a = .ok k ∧ d'.filter = some ⟨k, a.R, q⟩ ∧ ∀ pp, d.ppar = some pp → q = lib.sq (lib.cov pp) := by
  unfold Create.createFilter at h
  cases hd : d.data with
  | none => simp [hd] at h
  | some n =>
    simp only [hd] at h
    cases hc : Create.construct lib d a with
    | error e => simp [hc] at h
    | ok k =>
      simp only [hc] at h
      cases hp : d.ppar with
      | some pp =>
        simp only [hp, Prod.mk.injEq, and_true] at h
        subst h
        exact ⟨k, _, rfl, rfl, by rintro _ ⟨⟩; rfl⟩
      | none =>
        simp only [hp] at h
        cases hq : d.fdictQQ with
        | none => simp [hq] at h
        | some q =>
          simp only [hq, Prod.mk.injEq, and_true] at h
          subst h
          exact ⟨k, _, rfl, rfl, by rintro _ ⟨⟩⟩

/-- A filter that was made. -/
theorem newFilter_ok {a : Create.Args RR} (h : newFilter B s a = (s', none)) :
    ∃ k q, Create.construct { B.lib with cov := B.S.cov } { s.dims with ppar := s.ob.a.ppar } a = .ok k ∧
      (∀ pp, s.ob.a.ppar = some pp → q = B.lib.sq (B.S.cov pp)) ∧
      s' = { s with filter := some ⟨k, a.R, none, a.fargs⟩, ob := { s.ob with a := { s.ob.a with filterQ := some q } } } := by
  unfold newFilter at h
  rcases hc : Create.createFilter { B.lib with cov := B.S.cov } { s.dims with ppar := s.ob.a.ppar } a with ⟨d, _ | e⟩
  · obtain ⟨k, q, h1, h2, h3⟩ := createFilter_ok hc
    simp only [hc, h2, Prod.mk.injEq, and_true] at h
    exact ⟨k, q, h1, h3, h.symm⟩
  · simp [hc] at h

theorem loadR_rest (b : Bool) : Spec.SameRest (loadR s b).1 s := by
  unfold loadR
  cases h : s.filterR with
  | some r => exact ⟨rfl, rfl, rfl, rfl, h.symm ▸ rfl, rfl, rfl⟩
  | none =>
    simp only
    split_ifs <;> exact .refl _

theorem loadR_ob (b : Bool) : (loadR s b).1.ob = s.ob := by
  unfold loadR
  cases h : s.filterR with
  | some r => rfl
  | none =>
    simp only
    split_ifs <;> rfl

theorem makeFilter_rest : Spec.SameRest (makeFilter B s q x).1 s := by
  unfold makeFilter
  have h1 := setPar_meta (S := B.S) (D := B.D) (dr := B.dr) (g := ⟨some q.lMax, some q.kMax, false⟩) (sq := B.lib.sq) s.ob (.str "prior_mean") none
  rcases hs : setPar B.S B.D B.dr ⟨some q.lMax, some q.kMax, false⟩ B.lib.sq s.ob (.str "prior_mean") none with ⟨ob, e | r⟩
  · rw [hs] at h1
    exact ⟨h1.1, h1.2, rfl, rfl, rfl, rfl, rfl⟩
  · rw [hs] at h1
    have h0 : Spec.SameRest ({ s with ob := ob }) s := ⟨h1.1, h1.2, rfl, rfl, rfl, rfl, rfl⟩
    simp only
    have h2 := newFilter_rest (B := B) (s := { s with ob := ob }) (filterArgs q.filter x.reduced x.fargs)
    rcases hn : newFilter B { s with ob := ob } (filterArgs q.filter x.reduced x.fargs) with ⟨s1, _ | e⟩
    · rw [hn] at h2
      exact (loadR_rest x.loadR).trans (h2.trans h0)
    · rw [hn] at h2
      exact h2.trans h0

theorem dryRun_rest : Spec.SameRest (dryRun B s x).1 s ∧ (dryRun B s x).1.filter = s.filter ∧ (dryRun B s x).1.ob = s.ob := by
  unfold dryRun
  split_ifs
  · rcases runFilter B s.filter x.dispatch s.ob.a s.rng with ⟨r, e | (y | _ | _ | _)⟩ <;>
      exact ⟨⟨rfl, rfl, rfl, rfl, rfl, rfl, rfl⟩, rfl, rfl⟩
  · exact ⟨.refl _, rfl, rfl⟩

/-- What `prep_estim` does, stage by stage. -/
theorem prepEstim_cases (B : Base K PP VV HX LS TT QQ RS RR CC) (s : Est K PP VV HX LS TT QQ RS RR CC) (x : Args) :
    (∃ s1 e, makeFilter B (storeSettings B s x) (prep x.set s.fd).2 x = (s1, some e) ∧ prepEstim B s x = (s1, some e)) ∨
    ∃ s1, makeFilter B (storeSettings B s x) (prep x.set s.fd).2 x = (s1, none) ∧
      ((∃ s2 e, dryRun B s1 x = (s2, some e) ∧ prepEstim B s x = (s2, some e)) ∨
      ∃ s2, dryRun B s1 x = (s2, none) ∧
        ((∃ s3 e, makeFns B s2 (prep x.set s.fd).2 x = (s3, some e) ∧ prepEstim B s x = (s3, some e)) ∨
        ∃ s3, makeFns B s2 (prep x.set s.fd).2 x = (s3, none) ∧ prepEstim B s x = makePool B s3 x)) := by
  unfold prepEstim
  simp only
  rcases h1 : makeFilter B (storeSettings B s x) (prep x.set s.fd).2 x with ⟨s1, _ | e⟩
  · right
    refine ⟨s1, rfl, ?_⟩
    simp only [andThen]
    rcases h2 : dryRun B s1 x with ⟨s2, _ | e⟩
    · right
      refine ⟨s2, rfl, ?_⟩
      simp only
      rcases h3 : makeFns B s2 (prep x.set s.fd).2 x with ⟨s3, _ | e⟩
      · exact Or.inr ⟨s3, rfl, rfl⟩
      · exact Or.inl ⟨s3, e, rfl, rfl⟩
    · exact Or.inl ⟨s2, e, rfl, rfl⟩
  · exact Or.inl ⟨s1, e, rfl, rfl⟩

end Stages

/-! ## C124 -/

/-- The filter that the settings ask for, in a model of these dimensions. -/
def Spec.KindFor (d : Create.Self PP QQ RR) (reduced : Bool) (f : FilterType) (k : Create.Kind) : Prop :=
  match f with
  | .kalman => k = .kalman d.dimx d.nobs
  | .inversion => False
  | .ensemble N => k = .ensemble N.toNat (if reduced = true then d.dimq - d.dimeps else d.dimx) d.nobs reduced

/-- The bounds of the search: the arguments, except for an argument `linear` that asks for the Kalman filter. -/
def Spec.prepBounds (a : PrepArgs) : Int × Int :=
  match a.linear.map (fun l => Spec.filterFor l 0) with
  | some .kalman => (1, 0)
  | _ => (a.lMax, a.kMax)

theorem construct_kind {lib : Create.Lib PP QQ} {d : Create.Self PP QQ RR} {f : FilterType} {reduced : Bool} {fargs : List (String × String)}
    {k : Create.Kind} (h : Create.construct lib d (filterArgs f reduced fargs) = .ok k) : Spec.KindFor d reduced f k := by
  cases f with
  | kalman =>
    unfold Create.construct at h
    have hs : Create.short (filterArgs (RR := RR) .kalman reduced fargs).ftype = some "KF" := show Create.short (some "KalmanFilter") = some "KF" by decide
    rw [if_pos hs] at h
    simp only [filterArgs, Create.filterCall] at h
    cases hk : lib.kalman fargs with
    | error e => simp [hk] at h
    | ok u =>
      simp only [hk, Except.ok.injEq] at h
      exact h.symm
  | inversion =>
    obtain ⟨e, he⟩ := construct_never lib d (filterArgs .inversion reduced fargs) (Or.inl (show Spec.wanted (some "IF") = .inversion by decide))
    rw [he] at h
    cases h
  | ensemble N =>
    unfold Create.construct at h
    have hs : Create.short (filterArgs (RR := RR) (.ensemble N) reduced fargs).ftype = some "EnKF" := show Create.short (some "EnKF") = some "EnKF" by decide
    rw [if_neg (by rw [hs]; decide), if_neg (by rw [hs]; decide), if_neg (by rw [hs]; decide)] at h
    simp only [filterArgs, Create.filterCall] at h
    cases hk : lib.ensemble fargs with
    | error e => simp [hk] at h
    | ok u =>
      simp only [hk, Except.ok.injEq] at h
      exact h.symm

section C124
variable (B : Base K PP VV HX LS TT QQ RS RR CC) (s : Est K PP VV HX LS TT QQ RS RR CC) (x : Args)

/-- **C124 (partial).** If `prep_estim` raises, for whatever reason: data, the stored `filter_R`, the mode and the pool are as before, and so are
the functions `lprob` etc. themselves, except if `self.pool` is `None`.

Missing: the settings in `fdict`, the current parameters and the filter, which are those of the failed call (`C124_settings_stick`,
`C124_failure_refuted`). -/
theorem C124_failure_partial {s' : Est K PP VV HX LS TT QQ RS RR CC} {e : PyErr} (h : prepEstim B s x = (s', some e)) :
    s'.dims = s.dims ∧ s'.filterR = s.filterR ∧ s'.ob.modeX = s.ob.modeX ∧ s'.pool.pool = s.pool.pool ∧
      (s.pool.pool ≠ .none → s'.fns = s.fns) := by
  have h0 : (storeSettings B s x).dims = s.dims ∧ (storeSettings B s x).filterR = s.filterR ∧ (storeSettings B s x).ob.modeX = s.ob.modeX ∧
      (storeSettings B s x).pool.pool = s.pool.pool ∧ (storeSettings B s x).fns = s.fns := ⟨rfl, rfl, rfl, rfl, rfl⟩
  have hA := makeFilter_rest (B := B) (s := storeSettings B s x) (q := (prep x.set s.fd).2) (x := x)
  rcases prepEstim_cases B s x with ⟨s1, e', h1, h2⟩ | ⟨s1, h1, h2⟩
  · rw [h1] at hA
    rw [h2, Prod.mk.injEq] at h
    obtain ⟨rfl, _⟩ := h
    exact ⟨hA.3.trans h0.1, hA.5.trans h0.2.1, hA.2.trans h0.2.2.1, (congrArg (·.pool) hA.6).trans h0.2.2.2.1, fun _ => hA.7.trans h0.2.2.2.2⟩
  · rw [h1] at hA
    have hB := (dryRun_rest (B := B) (s := s1) (x := x)).1
    rcases h2 with ⟨s2, e', h2, h3⟩ | ⟨s2, h2, h3⟩
    · rw [h2] at hB
      rw [h3, Prod.mk.injEq] at h
      obtain ⟨rfl, _⟩ := h
      have hC := hB.trans hA
      exact ⟨hC.3.trans h0.1, hC.5.trans h0.2.1, hC.2.trans h0.2.2.1, (congrArg (·.pool) hC.6).trans h0.2.2.2.1, fun _ => hC.7.trans h0.2.2.2.2⟩
    · rw [h2] at hB
      have hC := hB.trans hA
      rcases h3 with ⟨s3, e', h3, h4⟩ | ⟨s3, h3, h4⟩
      · rw [h4, Prod.mk.injEq] at h
        obtain ⟨rfl, _⟩ := h
        unfold makeFns at h3
        cases hp : B.D.prior with
        | none =>
          simp only [hp, Prod.mk.injEq] at h3
          obtain ⟨rfl, _⟩ := h3
          exact ⟨hC.3.trans h0.1, hC.5.trans h0.2.1, hC.2.trans h0.2.2.1, (congrArg (·.pool) hC.6).trans h0.2.2.2.1,
            fun _ => hC.7.trans h0.2.2.2.2⟩
        | some p =>
          simp only [hp] at h3
          cases hg : B.getPrior with
          | error e'' =>
            simp only [hg, Prod.mk.injEq] at h3
            obtain ⟨rfl, _⟩ := h3
            exact ⟨hC.3.trans h0.1, hC.5.trans h0.2.1, hC.2.trans h0.2.2.1, (congrArg (·.pool) hC.6).trans h0.2.2.2.1,
              fun _ => hC.7.trans h0.2.2.2.2⟩
          | ok f => simp [hg] at h3
      · have hD : s3.dims = s.dims ∧ s3.filterR = s.filterR ∧ s3.ob.modeX = s.ob.modeX ∧ s3.pool.pool = s.pool.pool := by
          unfold makeFns at h3
          cases hp : B.D.prior with
          | none => simp [hp] at h3
          | some p =>
            simp only [hp] at h3
            cases hg : B.getPrior with
            | error e'' => simp [hg] at h3
            | ok f =>
              simp only [hg, Prod.mk.injEq, and_true] at h3
              subst h3
              exact ⟨hC.3.trans h0.1, hC.5.trans h0.2.1, hC.2.trans h0.2.2.1, (congrArg (·.pool) hC.6).trans h0.2.2.2.1⟩
        rw [h4] at h
        unfold makePool at h
        split_ifs at h with hc
        · rcases hpp : s3.pool.pool with _ | _ | ⟨n, c⟩
          · simp [hpp, createPool] at h
          · simp only [hpp, createPool, Prod.mk.injEq] at h
            obtain ⟨rfl, _⟩ := h
            have : s.pool.pool = .none := hD.2.2.2.symm.trans hpp
            exact ⟨hD.1, hD.2.1, hD.2.2.1, this.symm, fun hn => absurd this hn⟩
          · simp [hpp, createPool] at h
        · simp at h

/-- **C124 (every failure).** Whether `prep_estim` succeeds or fails, and wherever it fails: the settings that it was called with are stored, and the
next `prep_estim()` decides on the same filter, seed and transformation. -/
theorem C124_settings_stick :
    (prepEstim B s x).1.fd = ⟨some (Spec.pick x.set.N s.fd.filterN 300), some (Spec.pick x.set.linear s.fd.linear (.bool false)),
      some (Spec.pick x.set.seed s.fd.seed 0), some (Spec.pick x.set.transform s.fd.transform false)⟩ ∧
    (prep PrepArgs.default (prepEstim B s x).1.fd).2.filter = (prep x.set s.fd).2.filter ∧
    (prep PrepArgs.default (prepEstim B s x).1.fd).2.seed = (prep x.set s.fd).2.seed ∧
    (prep PrepArgs.default (prepEstim B s x).1.fd).2.transform = (prep x.set s.fd).2.transform := by
  have key : (prepEstim B s x).1.fd = (prep x.set s.fd).1 := by
    have hA := makeFilter_rest (B := B) (s := storeSettings B s x) (q := (prep x.set s.fd).2) (x := x)
    rcases prepEstim_cases B s x with ⟨s1, e', h1, h2⟩ | ⟨s1, h1, h2⟩
    · rw [h1] at hA; rw [h2]; exact hA.4
    · rw [h1] at hA
      have hB := (dryRun_rest (B := B) (s := s1) (x := x)).1
      rcases h2 with ⟨s2, e', h2, h3⟩ | ⟨s2, h2, h3⟩
      · rw [h2] at hB; rw [h3]; exact (hB.trans hA).4
      · rw [h2] at hB
        have hF : (makeFns B s2 (prep x.set s.fd).2 x).1.fd = s2.fd := by
          unfold makeFns
          cases B.D.prior with
          | none => rfl
          | some p => cases B.getPrior <;> rfl
        rcases h3 with ⟨s3, e', h3, h4⟩ | ⟨s3, h3, h4⟩
        · rw [h3] at hF; rw [h4]; exact hF.trans (hB.trans hA).4
        · rw [h3] at hF; rw [h4]
          have hP : (makePool B s3 x).1.fd = s3.fd := by
            unfold makePool
            split_ifs <;> rfl
          exact hP.trans (hF.trans (hB.trans hA).4)
  have h5 := C50_persist x.set s.fd 0
  simp only [Function.iterate_zero, id_eq] at h5
  rw [key]
  exact ⟨(C50_resolution x.set s.fd).1, h5.2.1, h5.2.2.1, h5.2.2.2⟩

/-- **C124 (success).** After `prep_estim` has run through: the functions are there, with the prior of the model, the calibrated values, and seed,
transformation and bounds as asked for; the filter is the one that the settings ask for, new, with the stored measurement errors if there are any (always
if they were asked for); `ndim` is the number of estimated parameters. -/
theorem C124_success_partial {s' : Est K PP VV HX LS TT QQ RS RR CC} (h : prepEstim B s x = (s', none)) :
    ∃ p f c flt, B.D.prior = some p ∧ B.getPrior = .ok f ∧ s'.fns = some c ∧ s'.filter = some flt ∧
      s'.ob.ndim = some p.names.length ∧ s'.ob.initValue = some f.init ∧
      c.prior = f ∧ c.parFix = B.D.parFix ∧ c.dispatch = x.dispatch ∧
      c.seed = Spec.pick x.set.seed s.fd.seed 0 ∧ c.transform = Spec.pick x.set.transform s.fd.transform false ∧
      (c.lMax, c.kMax) = Spec.prepBounds x.set ∧
      flt.initCov = none ∧ flt.fargs = x.fargs ∧ flt.R = s.filterR ∧ (x.loadR = true → flt.R ≠ none) ∧
      Spec.KindFor s.dims x.reduced (Spec.filterFor (Spec.pick x.set.linear s.fd.linear (.bool false)) (Spec.pick x.set.N s.fd.filterN 300)) flt.kind := by
  obtain ⟨_, hq1, hq2, hq3⟩ := C50_resolution x.set s.fd
  have hq4 : ((prep x.set s.fd).2.lMax, (prep x.set s.fd).2.kMax) = Spec.prepBounds x.set := C50_bounds x.set s.fd
  rcases prepEstim_cases B s x with ⟨s1, e', h1, h2⟩ | ⟨s1, h1, h2⟩
  · rw [h2] at h; cases h
  · have hfil : ∃ flt, s1.filter = some flt ∧ flt.initCov = none ∧ flt.fargs = x.fargs ∧ flt.R = s.filterR ∧ (x.loadR = true → flt.R ≠ none) ∧
        Spec.KindFor s.dims x.reduced (prep x.set s.fd).2.filter flt.kind := by
      unfold makeFilter at h1
      rcases hs : setPar B.S B.D B.dr ⟨some (prep x.set s.fd).2.lMax, some (prep x.set s.fd).2.kMax, false⟩ B.lib.sq (storeSettings B s x).ob
        (.str "prior_mean") none with ⟨ob, e | r⟩
      · simp [hs] at h1
      · simp only [hs] at h1
        rcases hn : newFilter B { storeSettings B s x with ob := ob } (filterArgs (prep x.set s.fd).2.filter x.reduced x.fargs) with ⟨s0, _ | e⟩
        · obtain ⟨k, q, hk, _, rfl⟩ := newFilter_ok hn
          simp only [hn] at h1
          have hkk := construct_kind hk
          have hR : (filterArgs (RR := RR) (prep x.set s.fd).2.filter x.reduced x.fargs).R = none := by
            cases (prep x.set s.fd).2.filter <;> rfl
          have hfa : (filterArgs (RR := RR) (prep x.set s.fd).2.filter x.reduced x.fargs).fargs = x.fargs := by
            cases (prep x.set s.fd).2.filter <;> rfl
          have hkk' : Spec.KindFor s.dims x.reduced (prep x.set s.fd).2.filter k := by
            revert hkk
            cases (prep x.set s.fd).2.filter <;> exact id
          unfold loadR at h1
          have hsr : (storeSettings B s x).filterR = s.filterR := rfl
          simp only [hsr, hR, hfa] at h1
          cases hr : s.filterR with
          | some r =>
            simp only [hr, Prod.mk.injEq, and_true] at h1
            subst h1
            exact ⟨_, rfl, rfl, rfl, rfl, fun _ => by simp, hkk'⟩
          | none =>
            simp only [hr] at h1
            split_ifs at h1 with hl
            · simp at h1
            simp only [Prod.mk.injEq, and_true] at h1
            subst h1
            exact ⟨_, rfl, rfl, rfl, rfl, fun hh => absurd hh hl, hkk'⟩
        · simp [hn] at h1
    have hB := dryRun_rest (B := B) (s := s1) (x := x)
    rcases h2 with ⟨s2, e', h2, h3⟩ | ⟨s2, h2, h3⟩
    · rw [h3] at h; cases h
    · rw [h2] at hB
      rcases h3 with ⟨s3, e', h3, h4⟩ | ⟨s3, h3, h4⟩
      · rw [h4] at h; cases h
      · unfold makeFns at h3
        cases hp : B.D.prior with
        | none => simp [hp] at h3
        | some p =>
          simp only [hp] at h3
          cases hg : B.getPrior with
          | error e'' => simp [hg] at h3
          | ok f =>
            simp only [hg, Prod.mk.injEq, and_true] at h3
            obtain ⟨flt, hf1, hf2, hf3, hf4, hf5, hf6⟩ := hfil
            have hs' : s'.fns = s3.fns ∧ s'.filter = s3.filter ∧ s'.ob = s3.ob := by
              rw [h4] at h
              unfold makePool at h
              split_ifs at h <;> (simp only [Prod.mk.injEq] at h; obtain ⟨rfl, _⟩ := h; exact ⟨rfl, rfl, rfl⟩)
            subst h3
            simp only at hs'
            refine ⟨p, f, _, flt, rfl, rfl, hs'.1, hs'.2.1.trans (hB.2.1.trans hf1), by rw [hs'.2.2], by rw [hs'.2.2], rfl, rfl, rfl, hq2, hq3, hq4,
              hf2, hf3, hf4, hf5, ?_⟩
            rw [← hq1]
            exact hf6

end C124

/-! ## C126 -/

/-- Calls between two evaluations of the density. -/
inductive EstEv (K RR CC : Type)
  | lprob (c : Call K)
  | setPar (g : GenArgs) (d : Dummy K) (x : Option K)
  | saveMeta (dflt : RR)
  /-- `extract(init_cov=)`, its effect on the filter -/
  | extract (c : Option CC)
  | prepEstim (x : Args)

namespace PrepEstim

/-- The state after a call (an exception is caught by the user). -/
def step (B : Base K PP VV HX LS TT QQ RS RR CC) (s : Est K PP VV HX LS TT QQ RS RR CC) : EstEv K RR CC → Est K PP VV HX LS TT QQ RS RR CC
  | .lprob c => (lprobCall B s c).1
  | .setPar g d x => (setParE B s g d x).1
  | .saveMeta dflt => saveMeta s dflt
  | .extract c =>
    match extractFilter B s with
    | (s, some _) => s
    | (s, none) => setInitCov s c
  | .prepEstim x => (PrepEstim.prepEstim B s x).1

/-- The state after a sequence of calls. -/
def after (B : Base K PP VV HX LS TT QQ RS RR CC) (s : Est K PP VV HX LS TT QQ RS RR CC) (l : List (EstEv K RR CC)) : Est K PP VV HX LS TT QQ RS RR CC :=
  l.foldl (step B) s

end PrepEstim

/-- The filter is not an ensemble filter in reduced form. -/
def Spec.NotReduced (f : Option (Flt RR CC)) : Prop := ∀ g, f = some g → ∀ N a b, g.kind ≠ .ensemble N a b true

/-- Calls that leave the filter object alone. -/
def Spec.Harmless (f : Option (Flt RR CC)) : EstEv K RR CC → Prop
  | .lprob _ => True
  | .setPar _ _ _ => True
  | .saveMeta _ => True
  | .extract c => c = none ∧ Spec.NotReduced f
  | .prepEstim _ => False

/-- The same functions, the array `par_fix` being the same for parameters that are not estimated. -/
def SameFns (arg : List Nat) : Option (Fns K) → Option (Fns K) → Prop
  | none, none => True
  | some c, some c' => c' = { c with parFix := c'.parFix } ∧ Spec.AgreeOff arg c'.parFix c.parFix
  | _, _ => False

theorem SameFns.refl (arg : List Nat) (f : Option (Fns K)) : SameFns arg f f := by
  cases f with
  | none => trivial
  | some c => exact ⟨rfl, .refl _ _⟩

theorem SameFns.trans {arg : List Nat} {a b c : Option (Fns K)} (h : SameFns arg a b) (h' : SameFns arg b c) : SameFns arg a c := by
  cases a <;> cases b <;> cases c <;> simp only [SameFns] at h h' ⊢
  rename_i a b c
  exact ⟨by rw [h'.1, h.1], h'.2.trans h.2⟩

/-- Positions of the estimated parameters. -/
def priorArg (D : Decl K) : List Nat :=
  match D.prior with
  | some p => p.arg
  | none => []

theorem setup_arg (B : Base K PP VV HX LS TT QQ RS RR CC) (f : Option (Flt RR CC)) (c : Fns K) : (setup B f c).arg = priorArg B.D := rfl

theorem lprobCall_fns (B : Base K PP VV HX LS TT QQ RS RR CC) (s : Est K PP VV HX LS TT QQ RS RR CC) (x : Call K) :
    (lprobCall B s x).1.filter = s.filter ∧ SameFns (priorArg B.D) s.fns (lprobCall B s x).1.fns := by
  unfold lprobCall
  cases hf : s.fns with
  | none => exact ⟨rfl, by simp only [hf]; trivial⟩
  | some c =>
    simp only
    have h := lprob_parFix (setup B s.filter c) ⟨s.rng, s.ob.a, c.parFix⟩ x.par x.temp x.trans
    rcases hl : lprob (setup B s.filter c) ⟨s.rng, s.ob.a, c.parFix⟩ x.par x.temp x.trans with ⟨w, r⟩
    rw [hl] at h
    exact ⟨by first | trivial | rfl, rfl, h⟩

theorem step_fns (B : Base K PP VV HX LS TT QQ RS RR CC) (s : Est K PP VV HX LS TT QQ RS RR CC) (e : EstEv K RR CC) (he : Spec.Harmless s.filter e) :
    (step B s e).filter = s.filter ∧ SameFns (priorArg B.D) s.fns (step B s e).fns := by
  cases e with
  | lprob c => exact lprobCall_fns B s c
  | setPar g d x => exact ⟨rfl, .refl _ _⟩
  | saveMeta dflt =>
    unfold step PrepEstim.saveMeta
    simp only
    cases h : s.filter with
    | none => exact ⟨h, .refl _ _⟩
    | some f => exact ⟨rfl, .refl _ _⟩
  | extract c =>
    obtain ⟨rfl, h2⟩ := he
    unfold step extractFilter
    simp only
    cases h : s.filter with
    | none => exact ⟨h, .refl _ _⟩
    | some f =>
      simp only
      have h3 := h2 f h
      cases hk : f.kind with
      | kalman a b => exact ⟨h, .refl _ _⟩
      | ensemble N a b r =>
        cases r with
        | true => exact absurd hk (h3 N a b)
        | false => exact ⟨h, .refl _ _⟩
  | prepEstim x => exact absurd he (by simp [Spec.Harmless])

theorem lprobCall_congr (B : Base K PP VV HX LS TT QQ RS RR CC) {s s' : Est K PP VV HX LS TT QQ RS RR CC} (hf : s'.filter = s.filter)
    (h : SameFns (priorArg B.D) s.fns s'.fns) (x : Call K) : (lprobCall B s' x).2 = (lprobCall B s x).2 := by
  unfold lprobCall
  cases h1 : s.fns with
  | none =>
    cases h2 : s'.fns with
    | none => rfl
    | some c => simp [h1, h2, SameFns] at h
  | some c =>
    cases h2 : s'.fns with
    | none => simp [h1, h2, SameFns] at h
    | some c' =>
      simp only [h1, h2, SameFns] at h
      simp only
      have hs : setup B s'.filter c' = setup B s.filter c := by
        rw [hf, h.1]
        rfl
      rw [hs]
      have hv := lprob_value (setup B s.filter c) ⟨s'.rng, s'.ob.a, c'.parFix⟩ ⟨s.rng, s.ob.a, c.parFix⟩ x.par x.temp x.trans h.2
      rcases hl : lprob (setup B s.filter c) ⟨s'.rng, s'.ob.a, c'.parFix⟩ x.par x.temp x.trans with ⟨w, r⟩
      rcases hl' : lprob (setup B s.filter c) ⟨s.rng, s.ob.a, c.parFix⟩ x.par x.temp x.trans with ⟨w', r'⟩
      rw [hl, hl'] at hv
      exact hv

/-- **C126 (partial).** After any sequence of evaluations of the density, of `set_par` (with whatever arguments, failing or not), `save_meta`, and of `extract`
with a filter that is not an ensemble filter in reduced form and without `init_cov`: the density of every draw is what it was before.

Missing: the other calls of `extract`; failing calls of `prep_estim` (`C126_density_refuted`, `C124_failure_refuted`). -/
theorem C126_density_partial (B : Base K PP VV HX LS TT QQ RS RR CC) (s : Est K PP VV HX LS TT QQ RS RR CC) (l : List (EstEv K RR CC))
    (hl : ∀ e ∈ l, Spec.Harmless s.filter e) (x : Call K) : (lprobCall B (after B s l) x).2 = (lprobCall B s x).2 := by
  have key : ∀ (l : List (EstEv K RR CC)) (s : Est K PP VV HX LS TT QQ RS RR CC), (∀ e ∈ l, Spec.Harmless s.filter e) →
      (after B s l).filter = s.filter ∧ SameFns (priorArg B.D) s.fns (after B s l).fns := by
    intro l
    induction l with
    | nil => intro s _; exact ⟨rfl, .refl _ _⟩
    | cons e l ih =>
      intro s hl
      obtain ⟨h1, h2⟩ := step_fns B s e (hl e (by simp))
      obtain ⟨h3, h4⟩ := ih (step B s e) (fun e' he' => by rw [h1]; exact hl e' (by simp [he']))
      exact ⟨h3.trans h1, h2.trans h4⟩
  obtain ⟨h1, h2⟩ := key l s hl
  exact lprobCall_congr B h1 h2 x

/-! ## C125 -/

/-- **C125 (partial).** The density is available with a filter, and the parameters that are not estimated have their calibrated values. Then the density of a draw is
that of the model that `set_par` makes of this draw (with the bounds of `prep_estim`): temperature times the result of the filter on all the attributes after
`set_par`, plus the prior; minus infinity if `set_par` raises.

Missing: other values of the parameters that are not estimated (`C125_other_parameters_refuted`); all parameters estimated in another order than declared,
where `set_par` takes a draw for a complete vector (`C125_order_refuted`). -/
theorem C125_same_model_partial (B : Base K PP VV HX LS TT QQ RS RR CC) (s : Est K PP VV HX LS TT QQ RS RR CC) (h : WF B.D) {p : Prior K}
    (hp : B.D.prior = some p) {w : List K} (hw : w.length = p.names.length)
    (hne : p.names.length ≠ B.D.names.length ∨ p.names = B.D.names)
    {c : Fns K} (hc : s.fns = some c) (hpf : Spec.AgreeOff p.arg c.parFix B.D.parFix)
    (hcur : ∀ cur, s.ob.a.par = some cur → Spec.AgreeOff p.arg cur B.D.parFix)
    (ho : ParOK B.D s.ob) (hfq : s.ob.a.filterQ ≠ none) {temp : K} (ht : 0 < temp)
    (hlp : c.prior.lprior w ≠ .ninf ∧ c.prior.lprior w ≠ .pinf) :
    (∀ s1 r y, setParE B s ⟨some c.lMax, some c.kMax, false⟩ (.vec w) none = (s1, .ok r) →
      (runFilter B s.filter c.dispatch s1.ob.a (B.seedState c.seed)).2 = .ok (.fin y) →
      (∀ x, c.prior.lprior w = .fin x → (lprobCall B s ⟨w, temp, some false⟩).2 = .ok (.fin (temp * y + x))) ∧
      (c.prior.lprior w = .nan → (lprobCall B s ⟨w, temp, some false⟩).2 = .ok .nan)) ∧
    (∀ s1 e, setParE B s ⟨some c.lMax, some c.kMax, false⟩ (.vec w) none = (s1, .error e) → e ≠ .keyboardInterrupt →
      (lprobCall B s ⟨w, temp, some false⟩).2 = .ok .ninf) := by
  set U := setup B s.filter c with hU
  have harg : U.arg = p.arg := by rw [hU, setup_arg]; simp [priorArg, hp]
  have hb : ∀ i ∈ p.arg, i < c.parFix.length := by rw [hpf.1, h.len]; exact h.bound hp
  have hl : w.length = p.arg.length := by rw [hw, h.argLen hp]
  set v := setMany c.parFix p.arg w with hv
  have hvv : setMany (curPar B.D s.ob.a) p.arg w = v := by
    refine setMany_congr p.arg w _ _ hl (Spec.AgreeOff.trans ?_ hpf.symm)
    unfold curPar
    cases hpar : s.ob.a.par with
    | none => exact Spec.AgreeOff.refl _ _
    | some cur => exact hcur cur hpar
  have hvl : v.length = B.D.names.length := by rw [hv, setMany_length, hpf.1, h.len]
  have hset : setPar B.S B.D B.dr ⟨some c.lMax, some c.kMax, false⟩ B.lib.sq s.ob (.vec w) none =
      finishSet B.S B.D B.dr ⟨some c.lMax, some c.kMax, false⟩ B.lib.sq s.ob v := by
    rcases hne with hne | hall
    · rw [setPar_est h hp hw hne s.ob ho, hvv]
    · have hwv : w = v := by
        apply List.ext_getElem?
        intro i
        have hwl : w.length = B.D.names.length := by rw [hw, hall]
        by_cases hi : i < B.D.names.length
        · refine (setMany_get c.parFix p.arg w (h.argNodup hp) hl.symm hb i i ?_).symm
          rw [(h.prior p hp).2.1, hall, List.getElem?_map, List.getElem?_eq_getElem hi, Option.map_some, h.nodup.idxOf_getElem i hi]
        · rw [List.getElem?_eq_none (by omega), List.getElem?_eq_none (by omega)]
      unfold setPar
      simp only
      rw [if_pos (by rw [hw, hall, h.len]), ← hwv]
  have hfs : fancySet c.parFix U.arg w = .ok v := by rw [harg]; exact fancySet_ok _ _ _ hb hl
  have hlc : (lprobCall B s ⟨w, temp, some false⟩).2 = (lprob U ⟨s.rng, s.ob.a, c.parFix⟩ w temp (some false)).2 := by
    unfold lprobCall
    simp only [hc]
    rfl
  have hwork : Spec.working U w (some false) = w := rfl
  have hinf : (U.lprior (Spec.working U w (some false))).isInf = false := by
    rw [hwork]
    have hlp' : U.lprior w ≠ .ninf ∧ U.lprior w ≠ .pinf := hlp
    cases hh : U.lprior w <;> simp_all [XNum.isInf]
  have hfin := finishSet_eq (S := B.S) (dr := B.dr) (g := ⟨some c.lMax, some c.kMax, false⟩) (sq := B.lib.sq) h hvl s.ob
  have hbody : llikeBody U ⟨s.rng, s.ob.a, c.parFix⟩ w = match genSysYaml B.S B.D ⟨some c.lMax, some c.kMax, false⟩ s.ob.a (some v) with
      | (a, some e) => (⟨U.seedState, a, v⟩, .error e)
      | (a, none) => match getLL U (match a.ppar with
          | some pp => { a with filterQ := some (B.lib.sq (B.S.cov pp)) }
          | none => a) U.seedState with
        | (r, res) => (⟨r, match a.ppar with
          | some pp => { a with filterQ := some (B.lib.sq (B.S.cov pp)) }
          | none => a, v⟩, res) := by
    unfold llikeBody
    simp only [hfs]
    rcases hg : genSysYaml B.S B.D ⟨some c.lMax, some c.kMax, false⟩ s.ob.a (some v) with ⟨a, _ | e⟩
    · have hg' : genSysYaml U.S U.D ⟨some U.lMax, some U.kMax, false⟩ s.ob.a (some v) = (a, none) := hg
      rw [hg']
      cases a.ppar <;> rfl
    · have hg' : genSysYaml U.S U.D ⟨some U.lMax, some U.kMax, false⟩ s.ob.a (some v) = (a, some e) := hg
      rw [hg']
  rcases hg : genSysYaml B.S B.D ⟨some c.lMax, some c.kMax, false⟩ s.ob.a (some v) with ⟨a, _ | e⟩
  · -- solved
    rw [hg] at hfin hbody
    simp only at hfin hbody
    have hattr := genSysYaml_attrs (S := B.S) (D := B.D) (g := ⟨some c.lMax, some c.kMax, false⟩) s.ob.a s.ob.a v rfl rfl (by rw [hg])
    rw [hg] at hattr
    have hsync := genSysYaml_sync (S := B.S) (D := B.D) (g := ⟨some c.lMax, some c.kMax, false⟩) s.ob.a v rfl (by rw [hg])
    obtain ⟨pp, _, _, _, _, _, _, hpp, _⟩ := hsync
    rw [hg] at hpp
    simp only at hpp hattr
    have hppar : a.ppar = some pp := by rw [hpp]
    obtain ⟨q, hq⟩ := Option.ne_none_iff_exists'.1 hfq
    have haq : a.filterQ = some q := by rw [hattr.2, hq]
    simp only [hppar, haq] at hfin hbody
    constructor
    · intro s1 r y hs hr
      unfold setParE at hs
      rw [hset, hfin] at hs
      simp only [Prod.mk.injEq] at hs
      obtain ⟨rfl, _⟩ := hs
      simp only at hr
      have hgl : (getLL U { a with ppar := some pp, filterQ := some (B.lib.sq (B.S.cov pp)) } U.seedState).2 = .ok (.fin y) := by
        rw [getLL_of]
        have : (U.filter { a with ppar := some pp, filterQ := some (B.lib.sq (B.S.cov pp)) } U.seedState).2 = .ok (.fin y) := hr
        rw [this]
      have hll : (llike U ⟨s.rng, s.ob.a, c.parFix⟩ w).2 = .ok (.fin y) := by
        unfold llike
        rw [hbody]
        simp only [hgl]
      rw [hlc, lprob_of_llike U _ w (ne_of_gt ht) (some false) hinf (x := .fin y) hll]
      constructor
      · intro x hx
        have hx' : U.lprior w = .fin x := hx
        simp [XNum.smul, XNum.isInf, XNum.add, mul_comm, hwork, hx']
      · intro hx
        have hx' : U.lprior w = .nan := hx
        simp [XNum.smul, XNum.isInf, XNum.add, mul_comm, hwork, hx']
    · intro s1 e hs
      unfold setParE at hs
      rw [hset, hfin] at hs
      simp at hs
  · rw [hg] at hfin hbody
    simp only at hfin hbody
    constructor
    · intro s1 r y hs
      unfold setParE at hs
      rw [hset, hfin] at hs
      simp at hs
    · intro s1 e' hs hk
      unfold setParE at hs
      rw [hset, hfin] at hs
      simp only [Prod.mk.injEq, Except.error.injEq] at hs
      obtain ⟨_, rfl⟩ := hs
      have hll : (llike U ⟨s.rng, s.ob.a, c.parFix⟩ w).2 = .ok .ninf := by
        unfold llike
        rw [hbody]
        cases e <;> first | rfl | exact absurd rfl hk
      rw [hlc, lprob_of_llike U _ w (ne_of_gt ht) (some false) hinf hll]
      simp [XNum.smul, XNum.isInf, ht]

/-! ## C127 -/

section Bounds
variable {S : Solver K PP VV HX LS TT QQ} {D : Decl K} {dr : Draws K} {g : GenArgs} {sq : QQ → QQ}

theorem genSysYaml_newLks (a : Attrs K PP VV HX LS TT QQ) (v : List K) (h : (genSysYaml S D g a (some v)).2 = none) :
    ∃ L, GenSys.newLks g.lMax g.kMax a.lks = .ok L ∧ (genSysYaml S D g a (some v)).1.lks = some L := by
  unfold genSysYaml at h ⊢
  simp only at h ⊢
  revert h
  repeat' split
  all_goals first
    | (intro h; cases h; done)
    | (intro _; exact ⟨_, by assumption, rfl⟩)

/-- Bounds that fit to what is asked for are kept, whatever happens. -/
theorem genSysYaml_keepLks {a : Attrs K PP VV HX LS TT QQ} {L : Int × Int} (hL : a.lks = some L) (hg : GenSys.newLks g.lMax g.kMax (some L) = .ok L)
    (par : Option (List K)) : (genSysYaml S D g a par).1.lks = some L := by
  unfold genSysYaml
  simp only [hL, hg]
  repeat' split
  all_goals first
    | exact hL
    | rfl

theorem finishSet_newLks (ob : Obj K PP VV HX LS TT QQ) (v : List K) {r : ParVal K QQ} (h : (finishSet S D dr g sq ob v).2 = .ok r) :
    ∃ L, GenSys.newLks g.lMax g.kMax ob.a.lks = .ok L ∧ (finishSet S D dr g sq ob v).1.a.lks = some L := by
  unfold finishSet at h ⊢
  have h1 := genSysYaml_newLks (S := S) (D := D) (g := g) ob.a v
  rcases hg : genSysYaml S D g ob.a (some v) with ⟨a, _ | e⟩
  · rw [hg] at h1
    obtain ⟨L, h2, h3⟩ := h1 rfl
    refine ⟨L, h2, ?_⟩
    simp only at h3 ⊢
    have hAl : ∀ A : Attrs K PP VV HX LS TT QQ, A.lks = some L →
        (getPar S D dr ⟨none, none, false⟩ { ob with a := A } .none none true 1).1.a.lks = some L := fun A hAl =>
      (getPar_frame (S := S) (D := D) (dr := dr) (g := ⟨none, none, false⟩) ({ ob with a := A }) hAl ⟨rfl, rfl⟩ .none none true 1).lks.trans hAl
    refine hAl _ ?_
    cases a.filterQ <;> cases a.ppar <;> exact h3
  · simp [hg] at h

/-- `set_par` with explicit bounds that succeeds: the bounds are those. -/
theorem setPar_bounds (ob : Obj K PP VV HX LS TT QQ) (d : Dummy K) (x : Option K) (l k : Int) {ob' : Obj K PP VV HX LS TT QQ} {r : ParVal K QQ}
    (h : setPar S D dr ⟨some l, some k, false⟩ sq ob d x = (ob', .ok r)) : ob'.a.lks = some (if l < 2 ∧ 0 < k then 3 else l + 1, k) := by
  have fin : ∀ (o : Obj K PP VV HX LS TT QQ) (v : List K), finishSet S D dr ⟨some l, some k, false⟩ sq o v = (ob', .ok r) →
      ob'.a.lks = some (if l < 2 ∧ 0 < k then 3 else l + 1, k) := by
    intro o v hf
    obtain ⟨L, h1, h2⟩ := finishSet_newLks (S := S) (D := D) (dr := dr) (sq := sq) (g := ⟨some l, some k, false⟩) o v (by rw [hf])
    rw [newLks_explicit, Except.ok.injEq] at h1
    rw [hf] at h2
    rw [h2, ← h1]
  have via : (match getPar S D dr ⟨some l, some k, false⟩ ob d none true 1 with
      | (ob, .error e) => ((ob, .error e) : Obj K PP VV HX LS TT QQ × Except PyErr (ParVal K QQ))
      | (ob, .ok (.vec v)) => finishSet S D dr ⟨some l, some k, false⟩ sq ob v
      | (ob, .ok (.scalar _)) => (ob, .error .typeError)
      | (ob, .ok _) => ({ ob with a := { ob.a with par := some [] } }, .error .valueError)) = (ob', .ok r) →
      ob'.a.lks = some (if l < 2 ∧ 0 < k then 3 else l + 1, k) := by
    rcases getPar S D dr ⟨some l, some k, false⟩ ob d none true 1 with ⟨o, e | (_ | v | _ | _ | _)⟩
    · intro hh; cases hh
    · intro hh; cases hh
    · exact fin o v
    all_goals (intro hh; cases hh)
  unfold setPar at h
  simp only at h
  cases x with
  | none =>
    simp only at h
    cases d with
    | none => exact via h
    | vec v =>
      simp only at h
      split_ifs at h
      · exact fin _ _ h
      · cases hp : D.prior with
        | none => simp [hp] at h
        | some p =>
          simp only [hp] at h
          split_ifs at h
          · cases hf : fancySet (curPar D ob.a) p.arg v with
            | error e => simp [hf] at h
            | ok w => simp only [hf] at h; exact fin _ _ h
          · exact via h
    | str s =>
      simp only at h
      split_ifs at h
      · simp at h
      · cases hp : D.prior with
        | none => simp [hp] at h
        | some p =>
          simp only [hp] at h
          split_ifs at h
          · simp at h
          · exact via h
  | some x =>
    simp only at h
    cases d with
    | none => simp at h
    | vec v => simp at h
    | str s =>
      simp only at h
      cases hi : D.names.idxOf? s with
      | none => simp [hi] at h
      | some i => simp only [hi] at h; exact fin _ _ h

end Bounds

/-- **C127 (partial).** After `prep_estim` has run through, the bounds of the search are those that it was asked for (`prepBounds`: for a preparation with
`linear=True` (1,0), else the arguments); after `set_par` with explicit bounds they are those given to `set_par`.

Missing: `set_par` without bounds after a linear preparation (`C127_linear_sticks_refuted`). -/
theorem C127_bounds_partial (B : Base K PP VV HX LS TT QQ RS RR CC) (s : Est K PP VV HX LS TT QQ RS RR CC) (x : Args)
    {s' : Est K PP VV HX LS TT QQ RS RR CC} (h : prepEstim B s x = (s', none)) :
    s'.ob.a.lks = some (if (Spec.prepBounds x.set).1 < 2 ∧ 0 < (Spec.prepBounds x.set).2 then 3 else (Spec.prepBounds x.set).1 + 1,
      (Spec.prepBounds x.set).2) ∧
    ∀ d y l k s'' r, setParE B s' ⟨some l, some k, false⟩ d y = (s'', .ok r) → s''.ob.a.lks = some (if l < 2 ∧ 0 < k then 3 else l + 1, k) := by
  refine ⟨?_, ?_⟩
  · have hq4 : ((prep x.set s.fd).2.lMax, (prep x.set s.fd).2.kMax) = Spec.prepBounds x.set := C50_bounds x.set s.fd
    rw [← hq4]
    simp only
    rcases prepEstim_cases B s x with ⟨s1, e', h1, h2⟩ | ⟨s1, h1, h2⟩
    · rw [h2] at h; cases h
    · have hs1 : s1.ob.a.lks = some (if (prep x.set s.fd).2.lMax < 2 ∧ 0 < (prep x.set s.fd).2.kMax then 3 else (prep x.set s.fd).2.lMax + 1,
          (prep x.set s.fd).2.kMax) := by
        unfold makeFilter at h1
        rcases hs : setPar B.S B.D B.dr ⟨some (prep x.set s.fd).2.lMax, some (prep x.set s.fd).2.kMax, false⟩ B.lib.sq (storeSettings B s x).ob
          (.str "prior_mean") none with ⟨ob, e | r⟩
        · simp [hs] at h1
        · simp only [hs] at h1
          have hb := setPar_bounds _ _ _ _ _ hs
          rcases hn : newFilter B { storeSettings B s x with ob := ob } (filterArgs (prep x.set s.fd).2.filter x.reduced x.fargs) with ⟨s0, _ | e⟩
          · obtain ⟨k, q, hk, _, rfl⟩ := newFilter_ok hn
            simp only [hn] at h1
            have ho := congrArg (fun p => p.1.ob.a.lks) h1
            rw [loadR_ob] at ho
            exact ho.symm.trans hb
          · simp [hn] at h1
      have hB := dryRun_rest (B := B) (s := s1) (x := x)
      rcases h2 with ⟨s2, e', h2, h3⟩ | ⟨s2, h2, h3⟩
      · rw [h3] at h; cases h
      · rw [h2] at hB
        rcases h3 with ⟨s3, e', h3, h4⟩ | ⟨s3, h3, h4⟩
        · rw [h4] at h; cases h
        · have hs3 : s3.ob.a = s2.ob.a := by
            unfold makeFns at h3
            cases hp : B.D.prior with
            | none => simp [hp] at h3
            | some p =>
              simp only [hp] at h3
              cases hg : B.getPrior with
              | error e'' => simp [hg] at h3
              | ok f =>
                simp only [hg, Prod.mk.injEq, and_true] at h3
                subst h3
                rfl
          have hs' : s'.ob = s3.ob := by
            rw [h4] at h
            unfold makePool at h
            split_ifs at h <;> (simp only [Prod.mk.injEq] at h; obtain ⟨rfl, _⟩ := h; rfl)
          rw [hs', hs3, hB.2.2]
          exact hs1
  · intro d y l k s'' r hs
    unfold setParE at hs
    rcases hp : setPar B.S B.D B.dr ⟨some l, some k, false⟩ B.lib.sq s'.ob d y with ⟨o, res⟩
    rw [hp] at hs
    simp only [Prod.mk.injEq] at hs
    obtain ⟨rfl, rfl⟩ := hs
    exact setPar_bounds _ _ _ _ _ hp

/-- Calls without explicit bounds, after the preparation. -/
def Spec.NoBounds : EstEv K RR CC → Prop
  | .setPar g _ _ => g.lMax = none ∧ g.kMax = none
  | .prepEstim _ => False
  | _ => True

/-- **C127 (refuted).** In every model: after `prep_estim(linear=True)` the tables have `k_max = 0`, and they still have after any sequence of `set_par` without
bounds, evaluations of the density, `save_meta` and `extract`. (In such tables the search for a spell runs out of bounds, `C05_kmax_zero_refuted`.) -/
theorem C127_linear_sticks_refuted (B : Base K PP VV HX LS TT QQ RS RR CC) (s : Est K PP VV HX LS TT QQ RS RR CC) (x : Args)
    {s' : Est K PP VV HX LS TT QQ RS RR CC} (h : prepEstim B s x = (s', none)) (hx : x.set.linear = some (.bool true)) (l : List (EstEv K RR CC))
    (hl : ∀ e ∈ l, Spec.NoBounds e) : (after B s' l).ob.a.lks = some (2, 0) := by
  have hb : Spec.prepBounds x.set = (1, 0) := by
    unfold Spec.prepBounds
    rw [hx]
    rfl
  obtain ⟨p, f, c, flt, _, _, hc, _, _, _, _, _, _, _, _, hlk, _⟩ := C124_success_partial B s x h
  have h0 := (C127_bounds_partial B s x h).1
  rw [hb] at h0 hlk
  simp only [Prod.mk.injEq] at hlk
  have key : ∀ (l : List (EstEv K RR CC)) (s : Est K PP VV HX LS TT QQ RS RR CC), (∀ e ∈ l, Spec.NoBounds e) → s.ob.a.lks = some (2, 0) →
      (∀ c, s.fns = some c → c.lMax = 1 ∧ c.kMax = 0) → (after B s l).ob.a.lks = some (2, 0) := by
    intro l
    induction l with
    | nil => intro s _ h1 _; exact h1
    | cons e l ih =>
      intro s hl h1 h2
      have he := hl e (by simp)
      refine ih (step B s e) (fun e' he' => hl e' (by simp [he'])) ?_ ?_
      · cases e with
        | lprob d =>
          unfold step lprobCall
          simp only
          cases hf : s.fns with
          | none => exact h1
          | some c =>
            obtain ⟨hc1, hc2⟩ := h2 c hf
            simp only
            have hA : (lprob (setup B s.filter c) ⟨s.rng, s.ob.a, c.parFix⟩ d.par d.temp d.trans).1.a.lks = some (2, 0) := by
              have hbody : ∀ p, (llikeBody (setup B s.filter c) ⟨s.rng, s.ob.a, c.parFix⟩ p).1.a.lks = some (2, 0) := by
                intro p
                unfold llikeBody
                simp only
                cases fancySet c.parFix (setup B s.filter c).arg p with
                | error e => exact h1
                | ok v =>
                  simp only
                  have hk := genSysYaml_keepLks (S := B.S) (D := B.D) (g := ⟨some c.lMax, some c.kMax, false⟩) h1
                    (by rw [newLks_explicit, hc1, hc2]; rfl) (some v)
                  have hsame : genSysYaml (setup B s.filter c).S (setup B s.filter c).D ⟨some (setup B s.filter c).lMax, some (setup B s.filter c).kMax, false⟩
                    s.ob.a (some v) = genSysYaml B.S B.D ⟨some c.lMax, some c.kMax, false⟩ s.ob.a (some v) := rfl
                  rw [hsame]
                  rcases hgs : genSysYaml B.S B.D ⟨some c.lMax, some c.kMax, false⟩ s.ob.a (some v) with ⟨a, _ | e⟩
                  · rw [hgs] at hk
                    simp only at hk ⊢
                    cases a.ppar <;> exact hk
                  · rw [hgs] at hk
                    exact hk
              have hll : ∀ p, (llike (setup B s.filter c) ⟨s.rng, s.ob.a, c.parFix⟩ p).1.a.lks = some (2, 0) := by
                intro p
                have := hbody p
                unfold llike
                rcases hb : llikeBody (setup B s.filter c) ⟨s.rng, s.ob.a, c.parFix⟩ p with ⟨w, e | y⟩
                · rw [hb] at this
                  cases e <;> exact this
                · rw [hb] at this
                  exact this
              unfold lprob
              simp only
              generalize (if d.trans.getD (setup B s.filter c).transform = true then (setup B s.filter c).bptrans d.par else d.par) = p
              split_ifs
              · exact h1
              · have := hll p
                rcases hb : llike (setup B s.filter c) ⟨s.rng, s.ob.a, c.parFix⟩ p with ⟨w, e | y⟩
                · rw [hb] at this
                  exact this
                · rw [hb] at this
                  simp only
                  split_ifs <;> exact this
              · simp only [XNum.isInf]
                exact h1
            exact hA
        | setPar g d y =>
          have := (setPar_frame (S := B.S) (D := B.D) (dr := B.dr) (sq := B.lib.sq) (g := g) s.ob h1 he d y).lks
          exact this.trans h1
        | saveMeta r =>
          unfold step PrepEstim.saveMeta
          simp only
          cases s.filter <;> exact h1
        | extract ic =>
          unfold step
          simp only
          have hE : (extractFilter B s).1.ob.a.lks = some (2, 0) := by
            unfold extractFilter
            cases s.filter with
            | none => exact h1
            | some f =>
              simp only
              cases f.kind with
              | kalman a b => exact h1
              | ensemble N a b r =>
                cases r with
                | false => exact h1
                | true =>
                  simp only [if_true]
                  rcases hn : newFilter B s ⟨f.R, some N, none, false, []⟩ with ⟨s0, _ | e⟩
                  · obtain ⟨k, q, _, _, rfl⟩ := newFilter_ok hn
                    exact h1
                  · unfold newFilter at hn
                    revert hn
                    repeat' split
                    all_goals (intro hn; simp only [Prod.mk.injEq] at hn; obtain ⟨rfl, _⟩ := hn; exact h1)
          rcases hx : extractFilter B s with ⟨s0, _ | e⟩
          · rw [hx] at hE
            cases ic <;> exact hE
          · rw [hx] at hE
            exact hE
        | prepEstim y => exact absurd he (by simp [Spec.NoBounds])
      · intro c' hc'
        cases e with
        | lprob d =>
          obtain ⟨_, hs⟩ := lprobCall_fns B s d
          have hc'' : (lprobCall B s d).1.fns = some c' := hc'
          rw [hc''] at hs
          cases hf : s.fns with
          | none => rw [hf] at hs; exact absurd hs (by simp [SameFns])
          | some c =>
            rw [hf] at hs
            rw [hs.1]
            exact h2 c hf
        | setPar g d y => exact h2 c' hc'
        | saveMeta r =>
          refine h2 c' ?_
          revert hc'
          unfold step PrepEstim.saveMeta
          simp only
          cases s.filter <;> exact id
        | extract ic =>
          refine h2 c' ?_
          revert hc'
          unfold step extractFilter
          simp only
          cases hf : s.filter with
          | none => exact id
          | some f =>
            simp only
            cases f.kind with
            | kalman a b => cases ic <;> exact id
            | ensemble N a b r =>
              cases r with
              | false => cases ic <;> exact id
              | true =>
                simp only [if_true]
                have hr := (newFilter_rest (B := B) (s := s) ⟨f.R, some N, none, false, []⟩).7
                rcases hn : newFilter B s ⟨f.R, some N, none, false, []⟩ with ⟨s0, _ | e⟩
                · rw [hn] at hr
                  cases ic <;> (intro hh; rw [← hr]; exact hh)
                · rw [hn] at hr
                  intro hh; rw [← hr]; exact hh
        | prepEstim y => exact absurd he (by simp [Spec.NoBounds])
  refine key l s' hl ?_ ?_
  · rw [h0]; rfl
  · intro c' hc'
    rw [hc, Option.some.injEq] at hc'
    subst hc'
    exact hlk

/-! ## C128 -/

/-- **C128 (refuted).** In every model without stored `filter_R` that has not been prepared, `mcmc` and `prior_sampler(check_likelihood=True)` raise, the first
time and every time after that: the preparation they try demands `filter_R`. -/
theorem C128_unprepared_refuted (B : Base K PP VV HX LS TT QQ RS RR CC) (s : Est K PP VV HX LS TT QQ RS RR CC) (hR : s.filterR = none)
    (hn : s.ob.ndim = none) (n : Nat) : (ensure B ((fun s => (ensure B s).1)^[n] s)).2 ≠ none := by
  have one : ∀ s : Est K PP VV HX LS TT QQ RS RR CC, s.filterR = none → s.ob.ndim = none →
      (ensure B s).2 ≠ none ∧ (ensure B s).1.filterR = none ∧ (ensure B s).1.ob.ndim = none := by
    intro s hR hn
    have hA := makeFilter_rest (B := B) (s := storeSettings B s { Args.default with loadR := true })
      (q := (prep Args.default.set s.fd).2) (x := { Args.default with loadR := true })
    have hfail : ∃ s1 e, makeFilter B (storeSettings B s { Args.default with loadR := true }) (prep Args.default.set s.fd).2
        { Args.default with loadR := true } = (s1, some e) := by
      unfold makeFilter
      rcases setPar B.S B.D B.dr ⟨some (prep Args.default.set s.fd).2.lMax, some (prep Args.default.set s.fd).2.kMax, false⟩ B.lib.sq
          (storeSettings B s { Args.default with loadR := true }).ob (.str "prior_mean") none with ⟨ob, e | r⟩
      · exact ⟨_, _, rfl⟩
      · simp only
        have hr := newFilter_rest (B := B) (s := { storeSettings B s { Args.default with loadR := true } with ob := ob })
          (filterArgs (prep Args.default.set s.fd).2.filter Args.default.reduced Args.default.fargs)
        rcases hnf : newFilter B { storeSettings B s { Args.default with loadR := true } with ob := ob }
          (filterArgs (prep Args.default.set s.fd).2.filter Args.default.reduced Args.default.fargs) with ⟨s0, _ | e⟩
        · rw [hnf] at hr
          have : s0.filterR = none := hr.5.trans hR
          unfold loadR
          simp only [this, if_true]
          exact ⟨_, _, rfl⟩
        · exact ⟨_, _, rfl⟩
    obtain ⟨s1, e, h1⟩ := hfail
    rw [h1] at hA
    have hp : prepEstim B s { Args.default with loadR := true } = (s1, some e) := by
      unfold prepEstim
      simp only
      have h1' : makeFilter B (storeSettings B s { Args.default with loadR := true }) (prep ({ Args.default with loadR := true } : Args).set s.fd).2
        { Args.default with loadR := true } = (s1, some e) := h1
      rw [h1']
      rfl
    have he : ensure B s = (s1, some e) := by
      unfold ensure
      simp only [hn, hp, andThen]
    rw [he]
    exact ⟨by simp, hA.5.trans hR, hA.1.trans hn⟩
  have it : ∀ n, ((fun s => (ensure B s).1)^[n] s).filterR = none ∧ ((fun s => (ensure B s).1)^[n] s).ob.ndim = none := by
    intro n
    induction n with
    | zero => exact ⟨hR, hn⟩
    | succ n ih =>
      rw [Function.iterate_succ_apply']
      exact (one _ ih.1 ih.2).2
  exact (one _ (it n).1 (it n).2).1

/-- **C128 (partial).** After `prep_estim` has run through, they find everything they need and change nothing; and without it, if `filter_R` is stored, they do what
`prep_estim(load_R=True)` does.

Missing: nothing stored (`C128_unprepared_refuted`). -/
theorem C128_prepared_partial (B : Base K PP VV HX LS TT QQ RS RR CC) (s : Est K PP VV HX LS TT QQ RS RR CC) :
    (∀ x s', prepEstim B s x = (s', none) → ensure B s' = (s', none)) ∧
    (∀ s', s.ob.ndim = none → prepEstim B s { Args.default with loadR := true } = (s', none) → ensure B s = (s', none)) ∧
    (∀ s' e, s.ob.ndim = none → prepEstim B s { Args.default with loadR := true } = (s', some e) → ensure B s = (s', some e)) := by
  refine ⟨?_, ?_, ?_⟩
  · intro x s' h
    obtain ⟨p, f, c, flt, _, _, hc, _, hn, _⟩ := C124_success_partial B s x h
    unfold ensure
    simp only [hn, andThen, hc]
  · intro s' hn h
    obtain ⟨p, f, c, flt, _, _, hc, _⟩ := C124_success_partial B s _ h
    unfold ensure
    simp only [hn, h, andThen, hc]
  · intro s' e hn h
    unfold ensure
    simp only [hn, h, andThen]

/-! ## Examples and counterexamples -/

namespace PrepEx

/-- Three parameters, `b` and `c` estimated. -/
def dec : Decl ℚ := ⟨["a", "b", "c"], [1, 0, 0], [], fun _ => [], some ⟨["b", "c"], [1, 2], [⟨false, false, 1/2, 1⟩, ⟨false, false, 2, 1⟩]⟩⟩

def sol : Solver ℚ (List ℚ) Unit Unit ℚ ℚ ℚ where
  pcompile v := .ok v
  constVar := true
  xbar _ := .ok (-1)
  vv0 := ()
  mats _ := .ok ()
  masks _ := .ok ((), ())
  linear v _ := if v.getD 1 0 > 1 then .error .linAlg else .ok (v.getD 1 0)
  tables v _ l := .ok (v.sum + l.1 + l.2)
  cov v := v.getD 2 0

/-- A likelihood that depends on the solution, on the covariance, on the kind of filter, on `R`, on `init_cov` and on the generator. -/
def lik (f : Flt ℚ ℚ) (a : Attrs ℚ (List ℚ) Unit Unit ℚ ℚ ℚ) (r : Nat) : Except PyErr (XNum ℚ) :=
  match a.tables, a.filterQ with
  | some t, some q => .ok (.fin (t + q + r + (match f.kind with | .kalman _ _ => 100 | .ensemble _ _ _ red => if red then 200 else 300)
      + f.R.getD 0 + f.initCov.getD 0))
  | _, _ => .error .attributeError

def base : Base ℚ (List ℚ) Unit Unit ℚ ℚ ℚ Nat ℚ ℚ where
  S := sol
  D := dec
  dr := ⟨fun _ => .error .attributeError, fun _ => .error .attributeError, .error .attributeError, fun _ _ => []⟩
  lib := ⟨fun v => v.getD 2 0, fun q => q * q, false, fun _ => .ok (), fun _ => .ok ()⟩
  cpus := 4
  seedState n := n.toNat + 7
  entropy := 1000
  getPrior := .ok ⟨fun v => if v.getD 1 0 > 5 then .ninf else .fin (v.sum / 2), fun v => v.map (· + 1), [none, none]⟩
  run f a r := (r + 1, lik f a r)

/-- A model with data, not prepared, with everything else as after loading. -/
def fresh : Est ℚ (List ℚ) Unit Unit ℚ ℚ ℚ Nat ℚ ℚ where
  ob := ⟨⟨none, none, none, none, none, none, none, none, none⟩, none, none, none⟩
  dims := ⟨some 2, 5, 3, 2, 2, ["y", "pi"], ["e", "u"], none, none, none⟩
  filter := none
  fd := ⟨none, none, none, none⟩
  filterR := none
  pool := ⟨false, .missing⟩
  rng := 42
  fns := none

/-- `prep_estim(linear=True, load_R=True)` -/
def linArgs : Args := { Args.default with set := { PrepArgs.default with linear := some (.bool true) }, loadR := true }

/-- `prep_estim(linear=True)` -/
def linOnly : Args := { Args.default with set := { PrepArgs.default with linear := some (.bool true) } }

/-- After `prep_estim()`. -/
def ready : Est ℚ (List ℚ) Unit Unit ℚ ℚ ℚ Nat ℚ ℚ := (prepEstim base fresh .default).1

theorem ready_ok : (prepEstim base fresh .default).2 = none := by decide +kernel

def draw : Call ℚ := ⟨[1/4, 1], 1, some false⟩

end PrepEx

open PrepEx

/-- **C124 (refuted).** (1) A model prepared with `prep_estim()`. The call `prep_estim(linear=True, load_R=True)` raises. The density that was there before now has
other values (it uses the filter of the failed call), and the next `prep_estim()` makes a Kalman filter, because the settings of the failed call are stored.
(2) A model prepared with `prep_estim(debug=True)`. The call `prep_estim(seed=5)` raises, since `self.pool` is `None`, but its functions are in place. -/
theorem C124_failure_refuted :
    ((prepEstim base fresh .default).2 = none ∧ (prepEstim base ready linArgs).2 = some .attributeError ∧
      (lprobCall base ready draw).2 = .ok (.fin (1847/8)) ∧ (lprobCall base (prepEstim base ready linArgs).1 draw).2 = .ok (.fin (1047/8)) ∧
      (prepEstim base (prepEstim base ready linArgs).1 .default).2 = none ∧
      ready.filter.map (·.kind) = some (.ensemble 300 1 2 true) ∧
      (prepEstim base (prepEstim base ready linArgs).1 .default).1.filter.map (·.kind) = some (.kalman 5 2)) ∧
    ((prepEstim base fresh { Args.default with debug := true }).2 = none ∧
      (prepEstim base (prepEstim base fresh { Args.default with debug := true }).1 { Args.default with set := { PrepArgs.default with seed := some 5 } }).2 =
        some .attributeError ∧
      (prepEstim base (prepEstim base fresh { Args.default with debug := true }).1 { Args.default with set := { PrepArgs.default with seed := some 5 } }).1.fns.map
        (·.seed) = some 5) := by
  refine ⟨⟨?_, ?_, ?_, ?_, ?_, ?_, ?_⟩, ?_, ?_, ?_⟩ <;> decide +kernel

/-- `C124_failure_partial` and `C124_success_partial` apply to these. -/
example : (prepEstim base ready linArgs).1.fns.map (·.parFix) = ready.fns.map (·.parFix) := by
  have h : prepEstim base ready linArgs = ((prepEstim base ready linArgs).1, some .attributeError) := by
    have : (prepEstim base ready linArgs).2 = some .attributeError := by decide +kernel
    rw [← this]
  rw [(C124_failure_partial base ready linArgs h).2.2.2.2 (by decide +kernel)]

theorem ready_eq : prepEstim base fresh .default = (ready, none) := by
  rw [← ready_ok]
  rfl

example : ∃ c, ready.fns = some c ∧ (c.lMax, c.kMax) = (3, 16) ∧ c.seed = 0 := by
  obtain ⟨p, f, c, flt, _, _, hc, _, _, _, _, _, _, h1, _, h2, _⟩ := C124_success_partial base fresh .default ready_eq
  exact ⟨c, hc, h2, h1⟩

theorem dec_wf : WF dec where
  len := rfl
  nodup := by decide
  prior p hp := by
    rw [show dec.prior = some ⟨["b", "c"], [1, 2], [⟨false, false, 1/2, 1⟩, ⟨false, false, 2, 1⟩]⟩ from rfl, Option.some.injEq] at hp
    subst hp
    decide

/-- **C125 (refuted).** In the prepared model the parameter `a`, which is not estimated, is set to 3. The density of a draw is still the one for the calibrated value
of `a`, and not the one of the model that `set_par` makes of this draw. -/
theorem C125_other_parameters_refuted :
    let s := (setParE base ready ⟨none, none, false⟩ (.str "a") (some 3)).1
    let t := (setParE base s ⟨some 3, some 16, false⟩ (.vec [1/4, 1]) none).1
    (setParE base ready ⟨none, none, false⟩ (.str "a") (some 3)).2.isOk = true ∧
      (setParE base s ⟨some 3, some 16, false⟩ (.vec [1/4, 1]) none).2.isOk = true ∧ t.ob.a.par = some [3, 1/4, 1] ∧
      (lprobCall base s draw).2 = .ok (.fin (1847/8)) ∧ (runFilter base s.filter false t.ob.a (base.seedState 0)).2 = .ok (.fin (1858/8)) ∧
      (runFilter base s.filter false (setParE base ready ⟨some 3, some 16, false⟩ (.vec [1/4, 1]) none).1.ob.a (base.seedState 0)).2 = .ok (.fin (1842/8)) := by
  refine ⟨?_, ?_, ?_, ?_, ?_, ?_⟩ <;> decide +kernel

/-- The model of the examples with all parameters estimated: in the declared order, and in the order `c, a, b`. -/
def PrepEx.baseAll (turned : Bool) : Base ℚ (List ℚ) Unit Unit ℚ ℚ ℚ Nat ℚ ℚ :=
  { base with D := ⟨["a", "b", "c"], [1, 0, 0], [], fun _ => [], some (if turned then ⟨["c", "a", "b"], [2, 0, 1], [⟨false, false, 2, 1⟩, ⟨false, false, 1, 1⟩,
      ⟨false, false, 1/2, 1⟩]⟩ else ⟨["a", "b", "c"], [0, 1, 2], [⟨false, false, 1, 1⟩, ⟨false, false, 1/2, 1⟩, ⟨false, false, 2, 1⟩]⟩)⟩ }

/-- **C125 (refuted) for all parameters in another order.** All three parameters are estimated, the prior lists them as `c, a, b`. The density of the draw `(2, 1, 1/2)` is that of
the model with `c = 2, a = 1, b = 1/2`: likelihood 938/4, prior 7/4. But `set_par` makes of this draw a model with `a = 2, b = 1, c = 1/2`. With the prior in the declared order both
agree. -/
theorem C125_order_refuted :
    let s := (prepEstim (baseAll true) fresh .default).1
    let t := (setParE (baseAll true) s ⟨some 3, some 16, false⟩ (.vec [2, 1, 1/2]) none).1
    let s' := (prepEstim (baseAll false) fresh .default).1
    let t' := (setParE (baseAll false) s' ⟨some 3, some 16, false⟩ (.vec [2, 1, 1/2]) none).1
    (prepEstim (baseAll true) fresh .default).2 = none ∧ t.ob.a.par = some [2, 1, 1/2] ∧
      (lprobCall (baseAll true) s ⟨[2, 1, 1/2], 1, some false⟩).2 = .ok (.fin (945/4)) ∧
      (runFilter (baseAll true) s.filter false t.ob.a 7).2 = .ok (.fin (923/4)) ∧
      t'.ob.a.par = some [2, 1, 1/2] ∧ (runFilter (baseAll false) s'.filter false t'.ob.a 7).2 = .ok (.fin (923/4)) ∧
      (lprobCall (baseAll false) s' ⟨[2, 1, 1/2], 1, some false⟩).2 = .ok (.fin (923/4 + 7/4)) := by
  refine ⟨?_, ?_, ?_, ?_, ?_, ?_, ?_⟩ <;> decide +kernel

/-- `C125_same_model_partial` at this draw: likelihood 1842/8, prior 5/8. -/
example : (lprobCall base ready ⟨[1/4, 1], 1, some false⟩).2 = .ok (.fin (1847/8)) := by
  obtain ⟨p, f, c, flt, hp, hf, hc, _, _, _, hcf, hcp, hcd, h1, _, h2, _⟩ := C124_success_partial base fresh .default ready_eq
  have hp' : p = ⟨["b", "c"], [1, 2], [⟨false, false, 1/2, 1⟩, ⟨false, false, 2, 1⟩]⟩ := by
    rw [show base.D.prior = some ⟨["b", "c"], [1, 2], [⟨false, false, 1/2, 1⟩, ⟨false, false, 2, 1⟩]⟩ from rfl, Option.some.injEq] at hp
    exact hp.symm
  subst hp'
  have hf' : f = ⟨fun v => if v.getD 1 0 > 5 then .ninf else .fin (v.sum / 2), fun v => v.map (· + 1), [none, none]⟩ := by
    rw [show base.getPrior = .ok ⟨fun v => if v.getD 1 0 > 5 then .ninf else .fin (v.sum / 2), fun v => v.map (· + 1), [none, none]⟩ from rfl,
      Except.ok.injEq] at hf
    exact hf.symm
  have hl : c.lMax = 3 ∧ c.kMax = 16 := by simpa [Spec.prepBounds, Args.default, PrepArgs.default] using h2
  have hlp : c.prior.lprior [1/4, 1] = .fin (5/8) := by rw [hcf, hf']; decide +kernel
  have hok : (setParE base ready ⟨some 3, some 16, false⟩ (.vec [1/4, 1]) none).2 = .ok (.vec [1, 1/4, 1]) := by decide +kernel
  have hoff : ∀ cur, ready.ob.a.par = some cur → Spec.AgreeOff [1, 2] cur dec.parFix := by
    have : ready.ob.a.par = some [1, 1/2, 2] := by decide +kernel
    rw [this]
    rintro cur h
    cases h
    refine ⟨rfl, fun i hi => ?_⟩
    match i with
    | 0 => rfl
    | 1 => simp at hi
    | 2 => simp at hi
    | n + 3 => rfl
  have key := (C125_same_model_partial base ready dec_wf (p := ⟨["b", "c"], [1, 2], [⟨false, false, 1/2, 1⟩, ⟨false, false, 2, 1⟩]⟩) rfl (w := [1/4, 1]) rfl
    (.inl (by decide)) hc (by rw [hcp]; exact ⟨rfl, fun _ _ => rfl⟩) hoff
    (by
      have : ready.ob.a.par = some [1, 1/2, 2] := by decide +kernel
      intro v hv
      rw [this, Option.some.injEq] at hv
      rw [← hv]
      rfl)
    (by
      have : ready.ob.a.filterQ = some 4 := by decide +kernel
      rw [this]
      simp) (temp := 1) (by norm_num) (by rw [hlp]; simp)).1
    (setParE base ready ⟨some 3, some 16, false⟩ (.vec [1/4, 1]) none).1 _ (1842/8)
    (by rw [hl.1, hl.2]; exact Prod.ext rfl hok)
    (by rw [hcd, h1]; decide +kernel)
  rw [key.1 _ hlp]
  norm_num

/-- **C126 (refuted).** In every model: `extract` with an ensemble filter in reduced form leaves a filter that is not in reduced form and has lost its additional
arguments, and this one is used by the density from then on. -/
theorem C126_extract_refuted (B : Base K PP VV HX LS TT QQ RS RR CC) (s : Est K PP VV HX LS TT QQ RS RR CC) {f : Flt RR CC} (hf : s.filter = some f) {N a b : Nat}
    (hk : f.kind = .ensemble N a b true) {s' : Est K PP VV HX LS TT QQ RS RR CC} (h : extractFilter B s = (s', none)) :
    s'.filter = some ⟨.ensemble N s.dims.dimx s.dims.nobs false, f.R, none, []⟩ ∧ s'.fns = s.fns := by
  unfold extractFilter at h
  simp only [hf, hk, if_true] at h
  obtain ⟨k, q, h1, _, rfl⟩ := newFilter_ok h
  refine ⟨?_, rfl⟩
  have hk' : k = .ensemble N s.dims.dimx s.dims.nobs false := by
    unfold Create.construct at h1
    have hs : Create.short (none : Option String) = none := by decide
    rw [if_neg (by rw [hs]; decide), if_neg (by rw [hs]; decide), if_neg (by rw [hs]; decide)] at h1
    simp only at h1
    revert h1
    split
    · intro hh; cases hh
    · intro hh
      simpa using (Except.ok.inj hh).symm
  subst hk'
  rfl

/-- **C126 (refuted).** The density of the same draw before and after `extract()` and `extract(init_cov=5)`. -/
theorem C126_density_refuted :
    (lprobCall base ready draw).2 = .ok (.fin (1847/8)) ∧ (lprobCall base (after base ready [.extract none]) draw).2 = .ok (.fin (2647/8)) ∧
      (lprobCall base (after base ready [.extract (some 5)]) draw).2 = .ok (.fin (2687/8)) := by
  refine ⟨?_, ?_, ?_⟩ <;> decide +kernel

/-- `C126_density_partial` with the Kalman filter: `lprob`, `set_par`, a failing `set_par`, `save_meta`, `extract`. -/
example : (lprobCall base (after base (prepEstim base fresh linOnly).1
    [.lprob draw, .setPar ⟨none, none, false⟩ (.str "a") (some 3), .setPar ⟨some 2, some 5, false⟩ (.vec [7, 7]) none, .saveMeta 1, .extract none]) draw).2 =
      .ok (.fin (903/8)) := by
  rw [C126_density_partial base _ _ ?_ draw]
  · decide +kernel
  · have hk : ((prepEstim base fresh linOnly).1).filter = some ⟨.kalman 5 2, none, none, []⟩ := by decide +kernel
    intro e he
    rw [hk]
    simp only [List.mem_cons, List.not_mem_nil, or_false] at he
    rcases he with rfl | rfl | rfl | rfl | rfl
    · trivial
    · trivial
    · trivial
    · trivial
    · refine ⟨rfl, fun g hg N a b h => ?_⟩
      rw [Option.some.injEq] at hg
      rw [← hg] at h
      cases h

/-- `C127_linear_sticks_refuted` in this model. -/
example : (after base (prepEstim base fresh linOnly).1 [.setPar ⟨none, none, false⟩ (.vec [1, 0, 0]) none, .lprob draw]).ob.a.lks = some (2, 0) :=
  C127_linear_sticks_refuted base fresh linOnly (s' := (prepEstim base fresh linOnly).1)
    (Prod.ext rfl (by decide +kernel)) rfl _ (by
      intro e he
      simp only [List.mem_cons, List.not_mem_nil, or_false] at he
      rcases he with rfl | rfl
      · exact ⟨rfl, rfl⟩
      · trivial)

/-- `C127_bounds_partial`: explicit bounds afterwards. -/
example : (setParE base (prepEstim base fresh linOnly).1 ⟨some 3, some 16, false⟩ (.vec [1, 0, 0]) none).1.ob.a.lks = some (4, 16) :=
  (C127_bounds_partial base fresh linOnly (s' := (prepEstim base fresh linOnly).1) (Prod.ext rfl (by decide +kernel))).2 (.vec [1, 0, 0]) none 3 16 _ (.vec [1, 0, 0])
    (Prod.ext rfl (by decide +kernel))

/-- `C128_unprepared_refuted`: the hundredth attempt fails like the first; `C128_prepared_partial`: with a stored `filter_R` it works. -/
example : (ensure base ((fun s => (ensure base s).1)^[99] fresh)).2 ≠ none := C128_unprepared_refuted base fresh rfl rfl 99

example : (ensure base { fresh with filterR := some 2 }).2 = none := by
  have h : prepEstim base { fresh with filterR := some 2 } { Args.default with loadR := true } =
      ((prepEstim base { fresh with filterR := some 2 } { Args.default with loadR := true }).1, none) := Prod.ext rfl (by decide +kernel)
  rw [(C128_prepared_partial base { fresh with filterR := some 2 }).2.1 _ rfl h]

end Pydsge
