import Verif.Props.PrepEstim

/-!
# The state of a prepared model (C124), dispatch (C129), measurement errors over sessions (C130)
-/

set_option autoImplicit false
set_option linter.unusedSectionVars false
set_option linter.unusedSimpArgs false

namespace Pydsge

open Pydsge.Params Pydsge.Estim Pydsge.Mcmc Pydsge.PrepEstim

variable {K PP VV HX LS TT QQ RS RR CC : Type} [Field K] [LinearOrder K]

section
variable {S : Solver K PP VV HX LS TT QQ} {D : Decl K} {dr : Draws K} {g : GenArgs} {sq : QQ → QQ}

/-- If `set_par("prior_mean")` succeeds, the parameters are the means of the priors. -/
theorem setPar_priorMean (h : WF D) {p : Prior K} (hp : D.prior = some p) (he : p.entries.length = p.names.length) {ob ob' : Obj K PP VV HX LS TT QQ}
    {r : ParVal K QQ} (hs : setPar S D dr g sq ob (.str "prior_mean") none = (ob', .ok r)) :
    ∃ v, ob'.a.par = some v ∧ Spec.Overlay D p.names (priorMean p) v := by
  have hpl : (priorMean p).length = p.names.length := by simp [priorMean, he]
  obtain ⟨h1, h2⟩ := overlay_of h p hp (priorMean p) hpl
  unfold setPar at hs
  simp only [hp] at hs
  by_cases hl1 : ("prior_mean" : String).length = D.parFix.length
  · rw [if_pos hl1] at hs
    simp at hs
  rw [if_neg hl1] at hs
  by_cases hl2 : ("prior_mean" : String).length = p.arg.length
  · rw [if_pos hl2] at hs
    simp at hs
  rw [if_neg hl2] at hs
  have hget : ∀ (o : Obj K PP VV HX LS TT QQ) (w : List K), getPar S D dr g ob (.str "prior_mean") none true 1 = (o, .ok (.vec w)) →
      w = setMany D.parFix p.arg (priorMean p) := by
    intro o w hg
    unfold getPar at hg
    rcases hst : startPars S D g ob none with ⟨o1, e | pars⟩
    · simp [hst] at hg
    · simp only [hst] at hg
      cases hi : D.names.idxOf? "prior_mean" with
      | some i =>
        simp only [hi, Prod.mk.injEq] at hg
        obtain ⟨_, hg⟩ := hg
        cases hpi : pars[i]? <;> simp [hpi] at hg
      | none =>
        cases hj : D.pfNames.idxOf? "prior_mean" with
        | some i =>
          simp only [hi, hj, Prod.mk.injEq] at hg
          obtain ⟨_, hg⟩ := hg
          cases hpi : (D.pf pars)[i]? <;> simp [hpi] at hg
        | none =>
          simp only [hi, hj] at hg
          rw [if_neg (by decide), if_neg (by decide)] at hg
          have hn : namedSet D dr o1 "prior_mean" 1 = ({ o1 with a := { o1.a with par := some D.parFix } }, .ok (.vec (priorMean p))) := by
            unfold namedSet
            simp [isMode, hp]
          simp only [hn, if_true, fullPar, h1, Prod.mk.injEq, Except.ok.injEq, ParVal.vec.injEq] at hg
          exact hg.2.symm
  rcases hg : getPar S D dr g ob (.str "prior_mean") none true 1 with ⟨o, e | (_ | v | _ | _ | _)⟩
  · simp [hg] at hs
  · simp [hg] at hs
  · have hv := hget o v hg
    simp only [hg] at hs
    have hvl : v.length = D.names.length := by rw [hv]; exact h2.1
    cases hsol : (genSysYaml S D g o.a (some v)).2 with
    | some e =>
      unfold finishSet at hs
      rcases hgs : genSysYaml S D g o.a (some v) with ⟨a, x⟩
      rw [hgs] at hsol
      simp only at hsol
      subst hsol
      simp [hgs] at hs
    | none =>
      obtain ⟨ob'', h3, h4⟩ := finishSet_ok (dr := dr) h sq hvl hsol
      rw [h3, Prod.mk.injEq] at hs
      rw [← hs.1]
      exact ⟨v, h4, by rw [hv]; exact h2⟩
  all_goals simp [hg] at hs

end

/-- The generator after `np.random.seed(seed)`. -/
def Spec.seeded (B : Base K PP VV HX LS TT QQ RS RR CC) : Option Int → RS
  | some n => B.seedState n
  | none => B.entropy

/-- **C124 (success, the state).** After `prep_estim` has run through: the parameters are the means of the priors and solution and `filter.Q` (see the remark in
`Model/PrepEstim`) belong to them; the
likelihood at them is finite if a dry run was asked for, the generator is where the given seed and the dry run leave it; there is a pool, of the size that was asked
for, unless `debug` or `ncores=0` was given. -/
theorem C124_success_state (B : Base K PP VV HX LS TT QQ RS RR CC) (s : Est K PP VV HX LS TT QQ RS RR CC) (x : Args) (hD : WF B.D) (ho : ParOK B.D s.ob)
    {p : Prior K} (hp : B.D.prior = some p) (he : p.entries.length = p.names.length)
    {s' : Est K PP VV HX LS TT QQ RS RR CC} (h : prepEstim B s x = (s', none)) :
    (∃ v w, s'.ob.a.par = some v ∧ Spec.Overlay B.D p.names w v ∧ w.length = p.names.length ∧
      ∀ j : Nat, w[j]? = (p.entries[j]?).map fun e => if e.uniform = true then (e.a + e.b) / 2 else e.a) ∧
    Spec.InSync B.S B.D B.lib.sq s'.ob.a ∧ s'.ob.a.filterQ ≠ none ∧
    (if x.dryRun then ∃ y, runFilter B s'.filter x.dispatch s'.ob.a (Spec.seeded B x.set.seed) = (s'.rng, .ok (.fin y))
      else s'.rng = Spec.seeded B x.set.seed) ∧
    s'.pool.debug = (s.pool.debug || x.debug) ∧
    (x.debug = true ∨ x.ncores = some 0 → s'.pool.pool = .none) ∧
    (x.debug = false → x.ncores ≠ some 0 → ∃ n, s'.pool.pool = .pool n false ∧ ∀ m, x.ncores = some m → n = m) := by
  rcases prepEstim_cases B s x with ⟨s1, e', h1, h2⟩ | ⟨s1, h1, h2⟩
  · rw [h2] at h; cases h
  · have hA := makeFilter_rest (B := B) (s := storeSettings B s x) (q := (prep x.set s.fd).2) (x := x)
    rw [h1] at hA
    have hs1 : (∃ v, s1.ob.a.par = some v ∧ Spec.Overlay B.D p.names (priorMean p) v) ∧ Spec.InSync B.S B.D B.lib.sq s1.ob.a ∧ s1.ob.a.filterQ ≠ none ∧
        s1.rng = Spec.seeded B x.set.seed := by
      unfold makeFilter at h1
      rcases hs : setPar B.S B.D B.dr ⟨some (prep x.set s.fd).2.lMax, some (prep x.set s.fd).2.kMax, false⟩ B.lib.sq (storeSettings B s x).ob
        (.str "prior_mean") none with ⟨ob, e | r⟩
      · simp [hs] at h1
      · simp only [hs] at h1
        have hsync := setPar_sync hD ho _ none rfl hs
        obtain ⟨v, hv1, hv2⟩ := setPar_priorMean hD hp he hs
        rcases hn : newFilter B { storeSettings B s x with ob := ob } (filterArgs (prep x.set s.fd).2.filter x.reduced x.fargs) with ⟨s0, _ | e⟩
        · obtain ⟨k, q, hk, hq, rfl⟩ := newFilter_ok hn
          simp only [hn] at h1
          have hob := congrArg (fun p => p.1.ob) h1
          rw [loadR_ob] at hob
          simp only at hob
          have hrng : s1.rng = Spec.seeded B x.set.seed := by
            have : s1.rng = (storeSettings B s x).rng := by
              unfold loadR at h1
              simp only at h1
              revert h1
              repeat' split
              all_goals (intro h1; simp only [Prod.mk.injEq] at h1; obtain ⟨rfl, _⟩ := h1; rfl)
            rw [this]
            unfold storeSettings Spec.seeded
            cases x.set.seed <;> rfl
          refine ⟨⟨v, by rw [← hob]; exact hv1, hv2⟩, ?_, by rw [← hob]; simp, hrng⟩
          obtain ⟨v', pp, xb, lks, vv, hx, ls, t, k1, k2, k3, k4, k5, k6, k7, k8, k9, k10, k11, k12, k13, k14, k15, _⟩ := hsync
          rw [← hob]
          exact ⟨v', pp, xb, lks, vv, hx, ls, t, k1, k2, k3, k4, k5, k6, k7, k8, k9, k10, k11, k12, k13, k14, k15, by
            intro q' hq'
            simp only [Option.some.injEq] at hq'
            rw [← hq']
            exact hq pp k4⟩
        · simp [hn] at h1
    obtain ⟨⟨v, hv1, hv2⟩, hsync, hfq, hrng⟩ := hs1
    rcases h2 with ⟨s2, e', h2, h3⟩ | ⟨s2, h2, h3⟩
    · rw [h3] at h; cases h
    · have hB := dryRun_rest (B := B) (s := s1) (x := x)
      rw [h2] at hB
      have hdry : (if x.dryRun then ∃ y, runFilter B s1.filter x.dispatch s1.ob.a s1.rng = (s2.rng, .ok (.fin y)) else s2.rng = s1.rng) := by
        unfold dryRun at h2
        by_cases hd : x.dryRun = true
        · rw [if_pos hd] at h2 ⊢
          rcases hr : runFilter B s1.filter x.dispatch s1.ob.a s1.rng with ⟨r, e | y⟩
          · simp [hr] at h2
          · cases y with
            | fin y =>
              simp only [hr, XNum.isInf, Bool.false_eq_true, if_false, Prod.mk.injEq, and_true] at h2
              subst h2
              exact ⟨y, rfl⟩
            | nan => simp [hr] at h2
            | pinf => simp [hr, XNum.isInf] at h2
            | ninf => simp [hr, XNum.isInf] at h2
        · rw [if_neg hd] at h2 ⊢
          simp only [Prod.mk.injEq, and_true] at h2
          rw [h2]
      rcases h3 with ⟨s3, e', h3, h4⟩ | ⟨s3, h3, h4⟩
      · rw [h4] at h; cases h
      · have hs3 : s3.ob.a = s2.ob.a ∧ s3.filter = s2.filter ∧ s3.rng = s2.rng ∧ s3.pool = s2.pool := by
          unfold makeFns at h3
          simp only [hp] at h3
          cases hg : B.getPrior with
          | error e'' => simp [hg] at h3
          | ok f =>
            simp only [hg, Prod.mk.injEq, and_true] at h3
            subst h3
            exact ⟨rfl, rfl, rfl, rfl⟩
        rw [h4] at h
        have hs' : s'.ob = s3.ob ∧ s'.filter = s3.filter ∧ s'.rng = s3.rng := by
          unfold makePool at h
          split_ifs at h <;> (simp only [Prod.mk.injEq] at h; obtain ⟨rfl, _⟩ := h; exact ⟨rfl, rfl, rfl⟩)
        have ha : s'.ob.a = s1.ob.a := by rw [hs'.1, hs3.1, hB.2.2]
        have hpool3 : s3.pool = { s.pool with debug := s.pool.debug || x.debug } := by rw [hs3.2.2.2, hB.1.6, hA.6]; rfl
        refine ⟨⟨v, priorMean p, by rw [ha]; exact hv1, hv2, by simp [priorMean, he], ?_⟩, by rw [ha]; exact hsync, by rw [ha]; exact hfq, ?_, ?_, ?_, ?_⟩
        · intro j
          simp only [priorMean, List.getElem?_map]
          congr 1
          funext e
          split_ifs <;> ring
        · rw [ha, hs'.2.1, hs'.2.2, hs3.2.1, hs3.2.2.1, hB.2.1, ← hrng]
          exact hdry
        · unfold makePool at h
          split_ifs at h <;> (simp only [Prod.mk.injEq] at h; obtain ⟨rfl, _⟩ := h; simp only [hpool3])
        · intro hx
          unfold makePool at h
          rw [if_neg (by
            rcases hx with hx | hx
            · simp [hx]
            · simp [hx])] at h
          simp only [Prod.mk.injEq, and_true] at h
          rw [← h]
        · intro hx1 hx2
          unfold makePool at h
          rw [if_pos (by
            cases hn : x.ncores with
            | none => simp [hx1]
            | some n =>
              simp only [hx1, Bool.not_false, Bool.true_and, bne_iff_ne, ne_eq]
              rintro rfl
              exact hx2 hn)] at h
          cases hn : x.ncores with
          | none =>
            cases hpp : s3.pool.pool with
            | missing =>
              simp only [hn, hpp, createPool, Prod.mk.injEq, and_true] at h
              rw [← h]
              exact ⟨_, rfl, by simp⟩
            | none => simp [hn, hpp, createPool] at h
            | pool n c =>
              simp only [hn, hpp, createPool, Prod.mk.injEq, and_true] at h
              rw [← h]
              exact ⟨_, rfl, by simp⟩
          | some n =>
            have hn0 : n ≠ 0 := by rintro rfl; exact hx2 hn
            cases hpp : s3.pool.pool with
            | missing =>
              simp only [hn, hpp, createPool, Prod.mk.injEq, and_true] at h
              rw [← h]
              exact ⟨_, rfl, by intro m hm; simp only [Option.some.injEq] at hm; subst hm; simp [hn0]⟩
            | none => simp [hn, hpp, createPool, hn0] at h
            | pool n' c =>
              simp only [hn, hpp, createPool, Prod.mk.injEq, and_true] at h
              rw [← h]
              exact ⟨_, rfl, by intro m hm; simp only [Option.some.injEq] at hm; subst hm; simp [hn0]⟩

/-! ## C129 -/

/-- **C129 (refuted).** In every model: with `dispatch=True`, `prep_estim` for the ensemble filter with a dry run raises; without a dry run it may return, but then the
density is minus infinity at every draw of finite prior density, or the evaluation is interrupted. -/
theorem C129_dispatch_refuted (B : Base K PP VV HX LS TT QQ RS RR CC) (s : Est K PP VV HX LS TT QQ RS RR CC) (x : Args) (hx : x.dispatch = true)
    (hf : ∃ N, Spec.filterFor (Spec.pick x.set.linear s.fd.linear (.bool false)) (Spec.pick x.set.N s.fd.filterN 300) = .ensemble N) :
    (x.dryRun = true → (prepEstim B s x).2 ≠ none) ∧
    (∀ s', prepEstim B s x = (s', none) → ∀ d : Call K, 0 < d.temp → d.trans = some false →
      (∀ f, B.getPrior = .ok f → f.lprior d.par ≠ .ninf ∧ f.lprior d.par ≠ .pinf) →
      (lprobCall B s' d).2 = .ok .ninf ∨ (lprobCall B s' d).2 = .error .keyboardInterrupt) := by
  have hkind : ∀ s', prepEstim B s x = (s', none) → ∃ f, s'.filter = some f ∧ ∃ N a b r, f.kind = .ensemble N a b r := by
    intro s' h
    obtain ⟨p, f, c, flt, _, _, _, h1, _, _, _, _, _, _, _, _, _, _, _, _, h2⟩ := C124_success_partial B s x h
    obtain ⟨N, hN⟩ := hf
    rw [hN] at h2
    exact ⟨flt, h1, _, _, _, _, h2⟩
  have hrun : ∀ s', prepEstim B s x = (s', none) → ∀ a r, runFilter B s'.filter true a r = (r, .error .importError) := by
    intro s' h a r
    obtain ⟨f, h1, N, a', b, r', h2⟩ := hkind s' h
    unfold runFilter
    simp only [h1, h2]
  refine ⟨?_, ?_⟩
  · intro hd hnone
    have h : prepEstim B s x = ((prepEstim B s x).1, none) := Prod.ext rfl hnone
    have := hrun _ h
    rcases prepEstim_cases B s x with ⟨s1, e', h1, h2⟩ | ⟨s1, h1, h2⟩
    · rw [h2] at h; cases h
    · rcases h2 with ⟨s2, e', h2, h3⟩ | ⟨s2, h2, h3⟩
      · rw [h3] at h; cases h
      · have hB := dryRun_rest (B := B) (s := s1) (x := x)
        rw [h2] at hB
        have hfil : (prepEstim B s x).1.filter = s1.filter := by
          rcases h3 with ⟨s3, e', h3, h4⟩ | ⟨s3, h3, h4⟩
          · rw [h4] at h; cases h
          · rw [h4]
            have e1 : (makePool B s3 x).1.filter = s3.filter := by
              unfold makePool
              split_ifs <;> rfl
            have e2 : s3.filter = s2.filter := by
              unfold makeFns at h3
              cases hp : B.D.prior with
              | none => simp [hp] at h3
              | some p =>
                simp only [hp] at h3
                cases hg : B.getPrior with
                | error e'' => simp [hg] at h3
                | ok f =>
                  simp only [hg, Prod.mk.injEq, and_true] at h3
                  subst h3
                  rfl
            rw [e1, e2, hB.2.1]
        rw [hfil] at this
        unfold dryRun at h2
        rw [if_pos hd, hx, this] at h2
        cases h2
  · intro s' h d ht htr hlp
    have ht0 : d.temp ≠ 0 := ne_of_gt ht
    obtain ⟨p, f, c, flt, hp, hgp, hc, _, _, _, hcf, hcp, hcd, _, _, _, _⟩ := C124_success_partial B s x h
    have hr := hrun s' h
    have hfil : ∀ a r, (setup B s'.filter c).filter a r = (r, .error .importError) := by
      intro a r
      show runFilter B s'.filter c.dispatch a r = _
      rw [hcd, hx]
      exact hr a r
    have hl := hlp f hgp
    rw [← hcf] at hl
    unfold lprobCall
    simp only [hc]
    set U := setup B s'.filter c with hU
    have hbody : ∀ w q, (∃ e, (llikeBody U w q).2 = .error e) := by
      intro w q
      unfold llikeBody
      simp only
      cases fancySet w.parFix U.arg q with
      | error e => exact ⟨_, rfl⟩
      | ok v =>
        simp only
        rcases genSysYaml U.S U.D ⟨some U.lMax, some U.kMax, false⟩ w.a (some v) with ⟨a, _ | e⟩
        · simp only
          have hgl : ∀ a r, (getLL U a r).2 = .error .importError := by
            intro a r
            unfold getLL
            simp only [hfil]
          exact ⟨_, hgl _ _⟩
        · exact ⟨_, rfl⟩
    have hll : ∀ w q, (llike U w q).2 = .ok .ninf ∨ (llike U w q).2 = .error .keyboardInterrupt := by
      intro w q
      obtain ⟨e, he⟩ := hbody w q
      unfold llike
      rcases hb : llikeBody U w q with ⟨w', r⟩
      rw [hb] at he
      simp only at he
      subst he
      cases e <;> simp
    have hlpr : U.lprior d.par ≠ .ninf ∧ U.lprior d.par ≠ .pinf := hl
    have hinf : (U.lprior d.par).isInf = false := by
      cases h' : U.lprior d.par <;> simp_all [XNum.isInf]
    have hfin : (lprob U ⟨s'.rng, s'.ob.a, c.parFix⟩ d.par d.temp d.trans).2 = .ok .ninf ∨
        (lprob U ⟨s'.rng, s'.ob.a, c.parFix⟩ d.par d.temp d.trans).2 = .error .keyboardInterrupt := by
      unfold lprob
      simp only [htr, Option.getD_some, Bool.false_eq_true, if_false, hinf]
      rcases hll ⟨s'.rng, s'.ob.a, c.parFix⟩ d.par with h1 | h1
      · left
        rcases hq : llike U ⟨s'.rng, s'.ob.a, c.parFix⟩ d.par with ⟨w, r⟩
        rw [hq] at h1
        simp only at h1
        subst h1
        simp only [ht0, if_false, ne_eq, not_false_eq_true, if_true]
        simp [XNum.smul, XNum.isInf, ht, ht0]
      · right
        rcases hq : llike U ⟨s'.rng, s'.ob.a, c.parFix⟩ d.par with ⟨w, r⟩
        rw [hq] at h1
        simp only at h1
        subst h1
        simp [ht0]
    exact hfin

/-- **C129 (partial).** For the Kalman filter `dispatch` makes no difference. -/
theorem C129_kalman_partial (B : Base K PP VV HX LS TT QQ RS RR CC) (f : Flt RR CC) {a b : Nat} (hk : f.kind = .kalman a b) (dispatch : Bool)
    (at' : Attrs K PP VV HX LS TT QQ) (r : RS) : runFilter B (some f) dispatch at' r = runFilter B (some f) false at' r := by
  unfold runFilter
  simp only [hk]

/-! ## C130 -/

/-- Calls that leave `fdict["filter_R"]` alone. -/
def Spec.KeepsR : EstEv K RR CC → Prop
  | .saveMeta _ => False
  | _ => True

theorem step_filterR (B : Base K PP VV HX LS TT QQ RS RR CC) (s : Est K PP VV HX LS TT QQ RS RR CC) (e : EstEv K RR CC) (he : Spec.KeepsR e) :
    (step B s e).filterR = s.filterR := by
  cases e with
  | lprob c =>
    unfold step lprobCall
    simp only
    cases s.fns with
    | none => rfl
    | some c' => rfl
  | setPar g d x => rfl
  | saveMeta r => exact absurd he (by simp [Spec.KeepsR])
  | extract c =>
    unfold step extractFilter
    simp only
    cases hf : s.filter with
    | none => rfl
    | some f =>
      simp only
      cases f.kind with
      | kalman a b => cases c <;> rfl
      | ensemble N a b r =>
        cases r with
        | false => cases c <;> rfl
        | true =>
          simp only [if_true]
          have hr := (newFilter_rest (B := B) (s := s) ⟨f.R, some N, none, false, []⟩).5
          rcases hn : newFilter B s ⟨f.R, some N, none, false, []⟩ with ⟨s0, _ | e⟩
          · rw [hn] at hr
            cases c <;> exact hr
          · rw [hn] at hr
            exact hr
  | prepEstim x =>
    unfold step
    simp only
    rcases h : prepEstim B s x with ⟨s', _ | e⟩
    · rcases prepEstim_cases B s x with ⟨s1, e', h1, h2⟩ | ⟨s1, h1, h2⟩
      · rw [h2] at h; cases h
      · have hA := (makeFilter_rest (B := B) (s := storeSettings B s x) (q := (prep x.set s.fd).2) (x := x)).5
        rw [h1] at hA
        rcases h2 with ⟨s2, e', h2, h3⟩ | ⟨s2, h2, h3⟩
        · rw [h3] at h; cases h
        · have hB := (dryRun_rest (B := B) (s := s1) (x := x)).1.5
          rw [h2] at hB
          rcases h3 with ⟨s3, e', h3, h4⟩ | ⟨s3, h3, h4⟩
          · rw [h4] at h; cases h
          · have e1 : (makePool B s3 x).1.filterR = s3.filterR := by
              unfold makePool
              split_ifs <;> rfl
            have e2 : s3.filterR = s2.filterR := by
              unfold makeFns at h3
              cases hp : B.D.prior with
              | none => simp [hp] at h3
              | some p =>
                simp only [hp] at h3
                cases hg : B.getPrior with
                | error e'' => simp [hg] at h3
                | ok f =>
                  simp only [hg, Prod.mk.injEq, and_true] at h3
                  subst h3
                  rfl
            rw [h4] at h
            rw [h] at e1
            exact e1.trans (e2.trans (hB.trans hA))
    · exact (C124_failure_partial B s x h).2.1

/-- **C130.** The measurement errors of the filter at the time of `save_meta` are those of every filter that `prep_estim` makes afterwards, whatever
happens in between except another `save_meta` (filters created, parameters set, samples extracted, failed preparations, ...), and `load_R=True` never
fails for want of them. -/
theorem C130_measurement_errors (B : Base K PP VV HX LS TT QQ RS RR CC) (s : Est K PP VV HX LS TT QQ RS RR CC) {f : Flt RR CC} (hf : s.filter = some f) (dflt : RR)
    (l : List (EstEv K RR CC)) (hl : ∀ e ∈ l, Spec.KeepsR e) (x : Args) {s' : Est K PP VV HX LS TT QQ RS RR CC}
    (h : prepEstim B (after B (step B s (.saveMeta dflt)) l) x = (s', none)) :
    ∃ g, s'.filter = some g ∧ g.R = some (f.R.getD dflt) := by
  have h0 : (step B s (.saveMeta dflt)).filterR = some (f.R.getD dflt) := by
    unfold step PrepEstim.saveMeta
    simp only [hf]
  have key : ∀ (l : List (EstEv K RR CC)) (s : Est K PP VV HX LS TT QQ RS RR CC), (∀ e ∈ l, Spec.KeepsR e) → (after B s l).filterR = s.filterR := by
    intro l
    induction l with
    | nil => intro s _; rfl
    | cons e l ih =>
      intro s hl
      exact (ih (step B s e) fun e' he' => hl e' (by simp [he'])).trans (step_filterR B s e (hl e (by simp)))
  obtain ⟨p, f', c, flt, _, _, _, h1, _, _, _, _, _, _, _, _, _, _, h2, _⟩ := C124_success_partial B _ x h
  exact ⟨flt, h1, by rw [h2, key l _ hl, h0]⟩

/-- With measurement errors stored, `load_R` decides nothing: the same result, or the same exception. -/
theorem C130_load_R (B : Base K PP VV HX LS TT QQ RS RR CC) (s : Est K PP VV HX LS TT QQ RS RR CC) {r : RR} (hr : s.filterR = some r) (x : Args) :
    prepEstim B s { x with loadR := true } = prepEstim B s { x with loadR := false } := by
  have hm : makeFilter B (storeSettings B s x) (prep x.set s.fd).2 { x with loadR := true } =
      makeFilter B (storeSettings B s x) (prep x.set s.fd).2 { x with loadR := false } := by
    unfold makeFilter
    rcases hs : setPar B.S B.D B.dr ⟨some (prep x.set s.fd).2.lMax, some (prep x.set s.fd).2.kMax, false⟩ B.lib.sq (storeSettings B s x).ob
      (.str "prior_mean") none with ⟨ob, e | v⟩
    · rfl
    · simp only
      have hrest := (newFilter_rest (B := B) (s := { storeSettings B s x with ob := ob }) (filterArgs (prep x.set s.fd).2.filter x.reduced x.fargs)).5
      rcases hn : newFilter B { storeSettings B s x with ob := ob } (filterArgs (prep x.set s.fd).2.filter x.reduced x.fargs) with ⟨s0, _ | e⟩
      · rw [hn] at hrest
        have h0 : s0.filterR = some r := hrest.trans hr
        unfold loadR
        simp only [h0]
      · rfl
  unfold prepEstim
  simp only
  have e1 : storeSettings B s { x with loadR := true } = storeSettings B s x := rfl
  have e2 : storeSettings B s { x with loadR := false } = storeSettings B s x := rfl
  rw [e1, e2, hm]
  rfl

/-! ## Examples -/

open PrepEx

/-- `C124_success_state` in the example: the prior means are (1/2, 2). -/
example : (∃ v w, ready.ob.a.par = some v ∧ Spec.Overlay dec ["b", "c"] w v) ∧ ∃ n, ready.pool.pool = .pool n false := by
  obtain ⟨⟨v, w, h1, h2, _⟩, _, _, _, _, _, h7⟩ := C124_success_state base fresh .default dec_wf (by intro v hv; cases hv)
    (p := ⟨["b", "c"], [1, 2], [⟨false, false, 1/2, 1⟩, ⟨false, false, 2, 1⟩]⟩) rfl rfl ready_eq
  obtain ⟨n, hn, _⟩ := h7 rfl (by decide)
  exact ⟨⟨v, w, h1, h2⟩, n, hn⟩

/-- `C129_dispatch_refuted`: a preparation without dry run returns. -/
example : (prepEstim base fresh { Args.default with dispatch := true, dryRun := false }).2 = none ∧
    (lprobCall base (prepEstim base fresh { Args.default with dispatch := true, dryRun := false }).1 draw).2 = .ok .ninf ∧
    (prepEstim base fresh { Args.default with dispatch := true }).2 = some .importError ∧
    (prepEstim base fresh { linOnly with dispatch := true }).2 = none := by
  refine ⟨?_, ?_, ?_, ?_⟩ <;> decide +kernel

/-- `C130_measurement_errors`: `R = 2` is set on the filter, `save_meta`, then a failing preparation, then one that returns. -/
example : ∃ g, (prepEstim base (after base (step base { ready with filter := some ⟨.ensemble 300 1 2 true, some 2, none, []⟩ } (.saveMeta 1))
    [.setPar ⟨none, none, false⟩ (.str "a") (some 3), .prepEstim { Args.default with dispatch := true }, .extract none]) .default).1.filter = some g ∧ g.R = some 2 :=
  C130_measurement_errors base { ready with filter := some ⟨.ensemble 300 1 2 true, some 2, none, []⟩ } rfl 1 _ (by
    intro e he
    simp only [List.mem_cons, List.not_mem_nil, or_false] at he
    rcases he with rfl | rfl | rfl <;> trivial) .default (Prod.ext rfl (by decide +kernel))

end Pydsge
