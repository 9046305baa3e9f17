import Verif.Props.ParSets

/-!
# C89: the parameter set `best`

`Props/ParSets.lean` shows that `get_par('best')` need not have the calibrated values of the parameters that are not estimated. Here: what it returns in every case, and exactly
when it is the documented set.
-/

set_option autoImplicit false
set_option linter.unusedSectionVars false
set_option linter.unusedSimpArgs false

namespace Pydsge

open Pydsge.Params

variable {K PP VV HX LS TT QQ : Type}

/-- The vector of all parameters in which the estimated ones (`names`) have the values `w` and the others those of `base`. -/
def Spec.OverlayOn (D : Decl K) (base : List K) (names : List String) (w : List K) (v : List K) : Prop :=
  v.length = D.names.length ∧
  (∀ (i j : Nat) (s : String), D.names[i]? = some s → names[j]? = some s → v[i]? = w[j]?) ∧
  (∀ (i : Nat) (s : String), D.names[i]? = some s → s ∉ names → v[i]? = base[i]?)

section
variable [Field K] [LinearOrder K] {S : Solver K PP VV HX LS TT QQ} {D : Decl K} {dr : Draws K} {g : GenArgs} {sq : QQ → QQ}
  {ob : Obj K PP VV HX LS TT QQ}

theorem overlayOn_of (h : WF D) (p : Prior K) (hp : D.prior = some p) (base : List K) (hbase : base.length = D.names.length) (w : List K)
    (hw : w.length = p.names.length) :
    assignPrior D base (.vec w) = .ok (setMany base p.arg w) ∧ Spec.OverlayOn D base p.names w (setMany base p.arg w) := by
  have hb : ∀ i ∈ p.arg, i < base.length := by rw [hbase]; exact h.bound hp
  have hl : w.length = p.arg.length := by rw [hw, h.argLen hp]
  obtain ⟨_, harg, _⟩ := h.prior p hp
  refine ⟨by simp only [assignPrior, hp]; rw [fancySet_ok _ _ _ hb hl], ?_, ?_, ?_⟩
  · rw [setMany_length, hbase]
  · intro i j s hi hj
    refine setMany_get _ _ _ (h.argNodup hp) hl.symm hb j i ?_
    rw [harg, List.getElem?_map, hj]
    obtain ⟨hi', hi''⟩ := List.getElem?_eq_some_iff.1 hi
    rw [Option.map_some, ← hi'', h.nodup.idxOf_getElem i hi']
  · intro i s hi hs
    refine setMany_get_ne _ _ _ _ ?_
    rw [harg, List.mem_map]
    rintro ⟨s', hs', rfl⟩
    obtain ⟨hi', hi''⟩ := List.getElem?_eq_some_iff.1 hi
    rw [List.getElem_idxOf hi'] at hi''
    exact hs (hi'' ▸ hs')

/-- The candidate of `best`: the mode if it is known, else the initial values. -/
theorem bestSet_doc (h : WF D) (p : Prior K) (hp : D.prior = some p) (hf : Fits p ob) {ob' : Obj K PP VV HX LS TT QQ} {c : Cand K}
    (hn : bestSet D dr ob = (ob', .ok c)) :
    ∃ w, c = .vec w ∧ w.length = p.names.length ∧ ∀ j : Nat, w[j]? = Spec.DocValue D p ob (if ob.modeX = none then "init" else "mode") j := by
  unfold bestSet at hn
  rcases hns : namedSet D dr ob "mode" 1 with ⟨ob2, e | c'⟩
  · have hm : ob.modeX = none ∧ ob2 = { ob with a := { ob.a with par := some D.parFix } } := by
      unfold namedSet at hns
      cases hm : ob.modeX with
      | none => simp [isMode, hm] at hns; exact ⟨rfl, by rw [← hns.1, ← hm]⟩
      | some v => simp [isMode, hm] at hns
    obtain ⟨hm, rfl⟩ := hm
    simp only [hns] at hn
    obtain ⟨u, rfl, hu, hj⟩ := namedSet_doc h p hp { ob with a := { ob.a with par := some D.parFix } } ⟨hf.entries, hf.init, hf.mode⟩ "init" (by decide) 1 hn
    refine ⟨u, rfl, hu, fun j => ?_⟩
    rw [hj j]
    simp only [hm, if_true]
    rfl
  · have hm : ob.modeX ≠ none := by
      intro hm
      unfold namedSet at hns
      simp [isMode, hm] at hns
    simp only [hns, Prod.mk.injEq, Except.ok.injEq] at hn
    obtain ⟨u, rfl, hu, hj⟩ := namedSet_doc h p hp ob hf "mode" (by decide) 1 hns
    refine ⟨u, hn.2.symm, hu, fun j => ?_⟩
    rw [hj j, if_neg hm]

/-- **C89 (`best`, what is returned).** If `get_par('best')` returns: the estimated parameters have the values of the mode if it is known, and the initial values otherwise; all
others have the values of the *current* parameters. -/
theorem C89_best (h : WF D) (p : Prior K) (hp : D.prior = some p) (hf : Fits p ob) (hnot : "best" ∉ D.names ∧ "best" ∉ D.pfNames) {v₀ : List K}
    (hv : ob.a.par = some v₀) (hl : v₀.length = D.names.length) (n : Nat) (ob' : Obj K PP VV HX LS TT QQ) (r : ParVal K QQ)
    (hg : getPar S D dr g ob (.str "best") none true n = (ob', .ok r)) :
    ∃ w v, r = .vec v ∧ Spec.OverlayOn D v₀ p.names w v ∧ w.length = p.names.length ∧
      ∀ j : Nat, w[j]? = Spec.DocValue D p ob (if ob.modeX = none then "init" else "mode") j := by
  unfold getPar at hg
  simp only [startPars_some hv, List.idxOf?_eq_none_iff.2 hnot.1, List.idxOf?_eq_none_iff.2 hnot.2] at hg
  rw [if_neg (by decide), if_pos trivial] at hg
  rcases hn : bestSet D dr ob with ⟨ob1, e | c⟩
  · simp [hn] at hg
  · obtain ⟨w, rfl, hwl, hwv⟩ := bestSet_doc h p hp hf hn
    obtain ⟨h1, h2⟩ := overlayOn_of h p hp v₀ hl w hwl
    simp only [hn, if_true, fullPar, h1, Prod.mk.injEq, Except.ok.injEq] at hg
    exact ⟨w, _, hg.2.symm, h2, hwl, hwv⟩

/-- **C89 (`best`, exact condition).** The result of `get_par('best')` is the documented set, with the calibrated values of the parameters that are not estimated, if and only if
these parameters presently have their calibrated values. -/
theorem C89_best_exact (h : WF D) (p : Prior K) (hp : D.prior = some p) (hf : Fits p ob) (hnot : "best" ∉ D.names ∧ "best" ∉ D.pfNames) {v₀ : List K}
    (hv : ob.a.par = some v₀) (hl : v₀.length = D.names.length) (n : Nat) (ob' : Obj K PP VV HX LS TT QQ) (v : List K)
    (hg : getPar S D dr g ob (.str "best") none true n = (ob', .ok (.vec v))) :
    (∃ w, Spec.Overlay D p.names w v ∧ w.length = p.names.length ∧
      ∀ j : Nat, w[j]? = Spec.DocValue D p ob (if ob.modeX = none then "init" else "mode") j) ↔
    ∀ (i : Nat) (s : String), D.names[i]? = some s → s ∉ p.names → v₀[i]? = D.parFix[i]? := by
  obtain ⟨w, v', hr, ho, hwl, hwv⟩ := C89_best h p hp hf hnot hv hl n ob' _ hg
  obtain rfl : v = v' := by
    injection hr
  constructor
  · rintro ⟨w', ho', -, -⟩ i s hi hs
    rw [← ho.2.2 i s hi hs, ho'.2.2 i s hi hs]
  · intro hc
    exact ⟨w, ⟨ho.1, ho.2.1, fun i s hi hs => (ho.2.2 i s hi hs).trans (hc i s hi hs)⟩, hwl, hwv⟩

end

/-- **C89 (`best`)**, hypotheses: in the example the mode is known; with the calibrated `a` the result is the documented one. -/
theorem C89_best_hypotheses_met :
    let ob : ParEx.O := { ParEx.solved with modeX := some [7, 8] }
    WF ParEx.decl ∧ Fits (PP := List Rat) (VV := String) (HX := Rat) (LS := Rat) (TT := Rat) (QQ := Rat)
      ⟨["c", "b"], [2, 1], [⟨true, false, 0, 1⟩, ⟨false, false, 1/3, 1⟩]⟩ ob ∧
    (getPar ParEx.solver ParEx.decl ParEx.draws ⟨none, none, false⟩ ob (.str "best") none true 1).2 = .ok (.vec [0, 8, 7]) := by
  refine ⟨ParEx.wf, ⟨rfl, ?_, ?_⟩, ?_⟩
  · intro l hl
    have : ParEx.solved.initValue = none := by rfl
    simp [this] at hl
  · intro l hl
    simp only [Option.some.injEq] at hl
    subst hl; rfl
  · decide +kernel

end Pydsge
