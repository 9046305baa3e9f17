import Verif.Model.VerbLike
import Verif.Props.ParDict
import Verif.Props.Estim

/-!
# C167: verbosity does not change the density
-/

set_option autoImplicit false
set_option linter.unusedSectionVars false
set_option linter.unusedSimpArgs false

namespace Pydsge

open Pydsge.Params Pydsge.Estim

variable {K PP VV HX LS TT QQ RS : Type} [Field K] [LinearOrder K]

/-- What `prep_estim` leaves for the report: names and bounds of the estimated parameters. -/
structure Spec.Reportable (U : Setup K PP VV HX LS TT QQ RS) (X : Report K) (p : Prior K) : Prop where
  decl : WF U.D
  prior : U.D.prior = some p
  names : X.priorNames = p.names
  lb : X.lb.length = p.names.length
  ub : X.ub.length = p.names.length

/-- The current parameters are complete, and so is the array of the closure. -/
structure Spec.Complete (U : Setup K PP VV HX LS TT QQ RS) (w : World K PP VV HX LS TT QQ RS) : Prop where
  par : ∃ v, w.a.par = some v ∧ v.length = U.D.names.length
  parFix : w.parFix.length = U.D.names.length

variable {U : Setup K PP VV HX LS TT QQ RS} {X : Report K} {p : Prior K} {w : World K PP VV HX LS TT QQ RS}

theorem llikeBody_complete (hw : Spec.Complete U w) (par : List K) : Spec.Complete U (llikeBody U w par).1 := by
  unfold llikeBody
  simp only
  cases hf : fancySet w.parFix U.arg par with
  | error e => exact ⟨hw.par, hw.parFix⟩
  | ok v =>
    have hl : v.length = U.D.names.length := (fancySet_length hf).trans hw.parFix
    simp only
    have hp := genSysYaml_par (S := U.S) (D := U.D) (g := ⟨some U.lMax, some U.kMax, false⟩) w.a v
    cases hg : genSysYaml U.S U.D ⟨some U.lMax, some U.kMax, false⟩ w.a (some v) with
    | mk a e =>
      rw [hg] at hp
      cases e with
      | some e => exact ⟨⟨v, hp, hl⟩, hl⟩
      | none =>
        simp only
        cases hpp : a.ppar with
        | none => exact ⟨⟨v, hp, hl⟩, hl⟩
        | some pp => exact ⟨⟨v, hp, hl⟩, hl⟩

theorem eraseDups_nodup {l : List String} (h : l.Nodup) : l.eraseDups = l := by
  induction l with
  | nil => rfl
  | cons a as ih =>
    obtain ⟨h1, h2⟩ := List.nodup_cons.1 h
    rw [List.eraseDups_cons, List.filter_eq_self.2, ih h2]
    intro b hb
    simp only [Bool.not_eq_true', beq_eq_false_iff_ne, ne_eq]
    rintro rfl
    exact h1 hb

/-- Values of a dictionary over distinct names. -/
theorem dictValues_names {rnd : K → K} {names : List String} {v : List K} {d : String → Option (Entry K)} (hn : names.Nodup)
    (hl : v.length = names.length) (hd : Spec.Names rnd names v d) : dictValues names d = .ok (v.map rnd) := by
  have hf : names.filterMap d = v.map fun x => .val (rnd x) := by
    have : ∀ (ns : List String) (u : List K), u.length = ns.length →
        (∀ (i : Nat) (s : String), ns[i]? = some s → ∃ x, u[i]? = some x ∧ d s = some (.val (rnd x))) →
        ns.filterMap d = u.map fun x => .val (rnd x) := by
      intro ns
      induction ns with
      | nil =>
        intro u hu _
        cases u with
        | nil => rfl
        | cons x xs => simp at hu
      | cons n ns ih =>
        intro u hu h
        cases u with
        | nil => simp at hu
        | cons x xs =>
          obtain ⟨y, hy, hdy⟩ := h 0 n rfl
          have hxy : x = y := by simpa using hy
          rw [List.filterMap_cons, hdy, List.map_cons, hxy]
          refine congrArg (Entry.val (rnd y) :: ·) ?_
          exact ih xs (by simpa using hu) fun i s hi => by simpa using h (i + 1) s (by simpa using hi)
    exact this names v hl hd.1
  unfold dictValues
  rw [eraseDups_nodup hn, hf]
  clear hf hl hd
  induction v with
  | nil => rfl
  | cons x xs ih => simp only [List.map_cons, List.mapM_cons, ih]; rfl

/-- **C167**, the report: if parameters are complete, the report of a failure succeeds, leaves everything as it is and consists of the messages of `box_check`
about the (rounded) estimated parameters. -/
theorem C167_report (hX : Spec.Reportable U X p) (hw : Spec.Complete U w) :
    ∃ v u msgs, w.a.par = some v ∧ fancyGet v p.arg = .ok u ∧ reportFailure U X w = (w, .ok msgs) ∧ BoxSpec p.names X.lb X.ub (u.map X.rnd) msgs := by
  obtain ⟨v, hv, hl⟩ := hw.par
  obtain ⟨hn, harg, hmem⟩ := hX.decl.prior p hX.prior
  have hb : ∀ i ∈ p.arg, i < v.length := fun i hi => by rw [hl]; exact hX.decl.bound hX.prior i hi
  obtain ⟨u, hu, hul, -⟩ := fancyGet_ok v p.arg hb
  have hul' : u.length = p.names.length := hul.trans (hX.decl.argLen hX.prior)
  have hget : getPar U.S U.D X.dr ⟨none, none, false⟩ ⟨w.a, X.modeX, X.initValue, X.ndim⟩ .none none false 1 =
      (⟨w.a, X.modeX, X.initValue, X.ndim⟩, .ok (.cand (.vec u))) := by
    unfold getPar startPars takePrior
    simp only [hv, hX.prior, hu, candPar, Bool.false_eq_true, if_false, gt_iff_lt, Nat.lt_irrefl]
  obtain ⟨d, hd, hdn⟩ := C152_estimated_partial (S := U.S) (D := U.D) X.rnd hX.decl p hX.prior .none 1 (by intro s hs; cases hs) _ u hul' hget
  have hkeys : fancyGet U.D.names p.arg = .ok p.names := by
    obtain ⟨ks, h1, h2, h3⟩ := fancyGet_ok U.D.names p.arg (hX.decl.bound hX.prior)
    rw [h1]
    congr 1
    apply List.ext_getElem?
    intro j
    by_cases hj : j < p.names.length
    · have hi : U.D.names.idxOf p.names[j] < U.D.names.length := List.idxOf_lt_length_iff.2 (hmem _ (List.getElem_mem hj))
      rw [h3 j (U.D.names.idxOf p.names[j]) (by rw [harg, List.getElem?_map, List.getElem?_eq_getElem hj, Option.map_some]),
        List.getElem?_eq_getElem hi, List.getElem_idxOf hi, List.getElem?_eq_getElem hj]
    · have : ks.length = p.names.length := by rw [h2, hX.decl.argLen hX.prior]
      rw [List.getElem?_eq_none (l := ks) (by omega), List.getElem?_eq_none (l := p.names) (by omega)]
  obtain ⟨msgs, hm, hbox⟩ := boxLoop_spec p.names (u.map X.rnd) X.lb X.ub (by simp [hul']) hX.lb hX.ub
  refine ⟨v, u, msgs, hv, hu, ?_, hbox⟩
  unfold reportFailure
  rw [hd]
  simp only [hX.prior, hkeys, dictValues_names hn hul' hdn, boxCheck, hX.names, hm]

/-- **C167.** Whatever the level of verbosity, `llike` and `lprob` give the same value and leave the same model, generator and array, also where the likelihood
cannot be computed. -/
theorem C167_verbosity (hX : Spec.Reportable U X p) (hw : Spec.Complete U w) (par : List K) (temp : K) (trans : Option Bool) (verbose : Nat) :
    llikeV U X w par verbose = llike U w par ∧ lprobV U X w par temp trans verbose = lprob U w par temp trans := by
  have key : ∀ par, llikeV U X w par verbose = llike U w par := by
    intro par
    have hc := llikeBody_complete hw par
    unfold llikeV llike
    cases hb : llikeBody U w par with
    | mk w' r =>
      rw [hb] at hc
      obtain ⟨v, u, msgs, -, -, hrep, -⟩ := C167_report hX hc
      cases r with
      | ok l => rfl
      | error e => cases e <;> simp only [hrep, ite_self]
  refine ⟨key par, ?_⟩
  unfold lprobV lprob
  simp only [key]
  generalize (if trans.getD U.transform = true then U.bptrans par else par) = q
  by_cases hi : (U.lprior q).isInf = true
  · rw [if_pos hi, if_pos hi]
  · rw [if_neg hi, if_neg hi]
    by_cases ht : temp ≠ 0
    · rw [if_pos ht, if_pos ht]
      cases llike U w q with
      | mk w' r => cases r <;> rfl
    · rw [if_neg ht, if_neg ht]

/-- If something is missing for the report, its exception leaves `llike` and `lprob` instead of the value minus infinity. -/
theorem C167_report_fails (par : List K) (temp : K) (ht : temp ≠ 0) {verbose : Nat} (hv : 1 < verbose) {w' : World K PP VV HX LS TT QQ RS} {e : PyErr}
    (hb : llikeBody U w par = (w', .error e)) (he : e ≠ .keyboardInterrupt) {e' : PyErr} (hr : (reportFailure U X w').2 = .error e')
    (hp : (U.lprior par).isInf = false) :
    (llikeV U X w par verbose).2 = .error e' ∧ (llike U w par).2 = .ok .ninf ∧ (lprobV U X w par temp (some false) verbose).2 = .error e' := by
  have h1 : (llikeV U X w par verbose).2 = .error e' := by
    unfold llikeV
    rw [hb]
    cases hq : reportFailure U X w' with
    | mk w2 r2 =>
      rw [hq] at hr
      simp only at hr
      subst hr
      cases e <;> first | exact absurd rfl he | simp only [if_pos hv, hq]
  refine ⟨h1, ?_, ?_⟩
  · unfold llike
    rw [hb]
    cases e <;> first | exact absurd rfl he | rfl
  · unfold lprobV
    simp only [Option.getD_some, Bool.false_eq_true, if_false, hp, if_pos ht]
    cases hl : llikeV U X w par verbose with
    | mk w2 r2 =>
      rw [hl] at h1
      simp only at h1
      subst h1
      rfl

/-- The same for any number of calls with any levels. -/
theorem C167_calls (hX : Spec.Reportable U X p) (hw : Spec.Complete U w) (l : List (Call K × Nat)) :
    l.foldl (fun w c => (lprobV U X w c.1.par c.1.temp c.1.trans c.2).1) w = afterCalls U w (l.map (·.1)) := by
  have hstep : ∀ (w : World K PP VV HX LS TT QQ RS) (c : Call K), Spec.Complete U w → Spec.Complete U (lprob U w c.par c.temp c.trans).1 := by
    intro w c hw
    have hl : ∀ par, Spec.Complete U (llike U w par).1 := by
      intro par
      have hc := llikeBody_complete hw par
      unfold llike
      split <;> (rename_i h; rw [h] at hc; exact ⟨hc.par, hc.parFix⟩)
    unfold lprob
    simp only
    generalize (if c.trans.getD U.transform = true then U.bptrans c.par else c.par) = q
    by_cases hi : (U.lprior q).isInf = true
    · rw [if_pos hi]
      exact hw
    · rw [if_neg hi]
      by_cases ht : c.temp ≠ 0
      · rw [if_pos ht]
        have := hl q
        cases hlk : llike U w q with
        | mk w' r =>
          rw [hlk] at this
          cases r with
          | error e => exact this
          | ok x =>
            by_cases hx : (x.smul c.temp).isInf = true
            · simp only [hx, if_true]
              exact this
            · simp only [hx]
              exact this
      · rw [if_neg ht]
        exact hw
  induction l generalizing w with
  | nil => rfl
  | cons c l ih =>
    rw [List.foldl_cons, List.map_cons, (C167_verbosity hX hw c.1.par c.1.temp c.1.trans c.2).2]
    exact ih (hstep w c.1 hw)

/-! ## A case -/

/-- The example of C45 with a prior on the last two parameters. -/
def VerbEx.setup : Setup ℚ (List ℚ) Unit Unit ℚ ℚ ℚ Nat :=
  { EstimEx.setup with D := ⟨["a", "b", "c"], [1, 0, 0], [], fun _ => [], some ⟨["b", "c"], [1, 2], [⟨true, false, 0, 1⟩, ⟨false, false, 1/3, 1⟩]⟩⟩ }

def VerbEx.report : Report ℚ := ⟨id, ParEx.draws, none, none, none, ["b", "c"], [0, 0], [1, 3]⟩

def VerbEx.start : World ℚ (List ℚ) Unit Unit ℚ ℚ ℚ Nat := { EstimEx.w0 with a := { EstimEx.w0.a with par := some [1, 0, 0] } }

/-- There is no solution at `(2, 2)`: the density is minus infinity and the report says that `b` is too high. -/
theorem C167_hypotheses_met :
    Spec.Reportable VerbEx.setup VerbEx.report ⟨["b", "c"], [1, 2], [⟨true, false, 0, 1⟩, ⟨false, false, 1/3, 1⟩]⟩ ∧ Spec.Complete VerbEx.setup VerbEx.start ∧
    (lprobV VerbEx.setup VerbEx.report VerbEx.start [2, 2] 1 none 2).2 = .ok .ninf ∧
    (reportFailure VerbEx.setup VerbEx.report (llikeBody VerbEx.setup VerbEx.start [2, 2]).1).2 = .ok [.high "b" 2 1] := by
  refine ⟨⟨⟨rfl, by decide, ?_⟩, rfl, rfl, rfl, rfl⟩, ⟨⟨_, rfl, rfl⟩, rfl⟩, by decide +kernel, by decide +kernel⟩
  intro p hp
  simp only [VerbEx.setup, Option.some.injEq] at hp
  subst hp
  decide

end Pydsge
