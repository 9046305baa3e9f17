import Verif.Props.PrepEstim

/-!
# C127: the density writes the bounds of the preparation to the model

estimation.py:155-186 `llike`: every evaluation solves the model itself (not a copy) with the bounds of the last `prep_estim`.
-/

set_option autoImplicit false
set_option linter.unusedSectionVars false
set_option linter.unusedSimpArgs false

namespace Pydsge

open Pydsge.Params Pydsge.Estim Pydsge.Mcmc Pydsge.PrepEstim

variable {K PP VV HX LS TT QQ RS RR CC : Type} [Field K] [LinearOrder K]

/-- Calls other than `prep_estim`. -/
def Spec.NoPrep : EstEv K RR CC → Prop
  | .prepEstim _ => False
  | _ => True

/-- The bounds that the density uses do not change without `prep_estim`. -/
theorem fns_bounds (B : Base K PP VV HX LS TT QQ RS RR CC) (l₀ k₀ : Int) : ∀ (l : List (EstEv K RR CC)) (s : Est K PP VV HX LS TT QQ RS RR CC),
    (∀ e ∈ l, Spec.NoPrep e) → (∀ c, s.fns = some c → c.lMax = l₀ ∧ c.kMax = k₀) → ∀ c, (after B s l).fns = some c → c.lMax = l₀ ∧ c.kMax = k₀ := by
  intro l
  induction l with
  | nil => intro s _ h; exact h
  | cons e l ih =>
    intro s hl h2
    have he := hl e (by simp)
    refine ih (step B s e) (fun e' he' => hl e' (by simp [he'])) ?_
    intro c' hc'
    cases e with
    | lprob d =>
      obtain ⟨_, hs⟩ := lprobCall_fns B s d
      have hc'' : (lprobCall B s d).1.fns = some c' := hc'
      rw [hc''] at hs
      cases hf : s.fns with
      | none => rw [hf] at hs; exact absurd hs (by simp [SameFns])
      | some c =>
        rw [hf] at hs
        rw [hs.1]
        exact h2 c hf
    | setPar g d y => exact h2 c' hc'
    | saveMeta r =>
      refine h2 c' ?_
      revert hc'
      unfold step PrepEstim.saveMeta
      simp only
      cases s.filter <;> exact id
    | extract ic =>
      refine h2 c' ?_
      revert hc'
      unfold step extractFilter
      simp only
      cases hf : s.filter with
      | none => exact id
      | some f =>
        simp only
        cases f.kind with
        | kalman a b => cases ic <;> exact id
        | ensemble N a b r =>
          cases r with
          | false => cases ic <;> exact id
          | true =>
            simp only [if_true]
            have hr := (newFilter_rest (B := B) (s := s) ⟨f.R, some N, none, false, []⟩).7
            rcases hn : newFilter B s ⟨f.R, some N, none, false, []⟩ with ⟨s0, _ | e⟩
            · rw [hn] at hr
              cases ic <;> (intro hh; rw [← hr]; exact hh)
            · rw [hn] at hr
              intro hh; rw [← hr]; exact hh
    | prepEstim y => exact absurd he (by simp [Spec.NoPrep])

/-- What an evaluation with a finite value leaves: the parameters that were solved and the bounds of the density. -/
theorem lprobCall_writes (B : Base K PP VV HX LS TT QQ RS RR CC) (s : Est K PP VV HX LS TT QQ RS RR CC) (x : Call K) (hx : x.temp ≠ 0) {y : K}
    (h : (lprobCall B s x).2 = .ok (.fin y)) :
    ∃ c, s.fns = some c ∧ (lprobCall B s x).1.ob.a.lks = some (if c.lMax < 2 ∧ 0 < c.kMax then 3 else c.lMax + 1, c.kMax) := by
  unfold lprobCall at h ⊢
  cases hf : s.fns with
  | none => simp [hf] at h
  | some c =>
    refine ⟨c, rfl, ?_⟩
    simp only [hf] at h ⊢
    have hbody : ∀ p (z : XNum K), (llikeBody (setup B s.filter c) ⟨s.rng, s.ob.a, c.parFix⟩ p).2 = .ok z →
        (llikeBody (setup B s.filter c) ⟨s.rng, s.ob.a, c.parFix⟩ p).1.a.lks = some (if c.lMax < 2 ∧ 0 < c.kMax then 3 else c.lMax + 1, c.kMax) := by
      intro p z hz
      unfold llikeBody at hz ⊢
      simp only at hz ⊢
      cases hfs : fancySet c.parFix (setup B s.filter c).arg p with
      | error e => simp [hfs] at hz
      | ok v =>
        simp only [hfs] at hz ⊢
        have h1 := genSysYaml_newLks (S := (setup B s.filter c).S) (D := (setup B s.filter c).D)
          (g := ⟨some (setup B s.filter c).lMax, some (setup B s.filter c).kMax, false⟩) s.ob.a v
        rcases hg : genSysYaml (setup B s.filter c).S (setup B s.filter c).D ⟨some (setup B s.filter c).lMax, some (setup B s.filter c).kMax, false⟩
            s.ob.a (some v) with ⟨a, _ | e⟩
        · rw [hg] at h1
          obtain ⟨L, h2, h3⟩ := h1 rfl
          rw [newLks_explicit] at h2
          cases h2
          simp only at h3 ⊢
          cases a.ppar <;> exact h3
        · simp [hg] at hz
    have hll : ∀ p (z : XNum K), (llike (setup B s.filter c) ⟨s.rng, s.ob.a, c.parFix⟩ p).2 = .ok z → z.isInf = false →
        (llike (setup B s.filter c) ⟨s.rng, s.ob.a, c.parFix⟩ p).1.a.lks = some (if c.lMax < 2 ∧ 0 < c.kMax then 3 else c.lMax + 1, c.kMax) := by
      intro p z hz hi
      have := hbody p
      unfold llike at hz ⊢
      rcases hb : llikeBody (setup B s.filter c) ⟨s.rng, s.ob.a, c.parFix⟩ p with ⟨w, e | y'⟩
      · rw [hb] at hz
        cases e <;> simp at hz <;> (subst hz; simp [XNum.isInf] at hi)
      · rw [hb] at this
        exact this y' rfl
    unfold lprob at h ⊢
    simp only at h ⊢
    generalize (if x.trans.getD (setup B s.filter c).transform = true then (setup B s.filter c).bptrans x.par else x.par) = p at h ⊢
    by_cases hi : ((setup B s.filter c).lprior p).isInf = true
    · rw [if_pos hi] at h
      simp only [Except.ok.injEq] at h
      rw [h] at hi
      simp [XNum.isInf] at hi
    · rw [if_neg hi, if_pos hx] at h ⊢
      have := hll p
      rcases hb : llike (setup B s.filter c) ⟨s.rng, s.ob.a, c.parFix⟩ p with ⟨w, e | z⟩
      · simp [hb] at h
      · rw [hb] at this
        simp only [hb] at h ⊢
        have hz : z.isInf = false := by
          by_contra hz
          have hz' : z.isInf = true := by simpa using hz
          cases z <;> simp [XNum.isInf] at hz'
          all_goals
            revert h
            simp only [XNum.smul]
            repeat' split
            all_goals simp_all [XNum.isInf, XNum.add]
        have hw := this z rfl hz
        simp only at hw
        by_cases hq : (z.smul x.temp).isInf = true
        · rw [if_pos hq]
          exact hw
        · rw [if_neg hq]
          exact hw

/-- **C127** (bounds after an evaluation): whatever was set after `prep_estim`, every evaluation of the density with a finite value gives the model the bounds of the preparation again. -/
theorem C127_density_bounds (B : Base K PP VV HX LS TT QQ RS RR CC) (s : Est K PP VV HX LS TT QQ RS RR CC) (x : Args)
    {s' : Est K PP VV HX LS TT QQ RS RR CC} (h : prepEstim B s x = (s', none)) (l : List (EstEv K RR CC)) (hl : ∀ e ∈ l, Spec.NoPrep e)
    (d : Call K) (hd : d.temp ≠ 0) {y : K} (hy : (lprobCall B (after B s' l) d).2 = .ok (.fin y)) :
    (after B s' (l ++ [.lprob d])).ob.a.lks = some (if (Spec.prepBounds x.set).1 < 2 ∧ 0 < (Spec.prepBounds x.set).2 then 3 else (Spec.prepBounds x.set).1 + 1,
      (Spec.prepBounds x.set).2) := by
  obtain ⟨p, f, c, flt, _, _, hc, _, _, _, _, _, _, _, _, hlk, _⟩ := C124_success_partial B s x h
  have hb := fns_bounds B (Spec.prepBounds x.set).1 (Spec.prepBounds x.set).2 l s' hl (by
    intro c' hc'
    rw [hc, Option.some.injEq] at hc'
    subst hc'
    rw [← hlk]
    exact ⟨rfl, rfl⟩)
  obtain ⟨c', hc', hw⟩ := lprobCall_writes B (after B s' l) d hd hy
  obtain ⟨h1, h2⟩ := hb c' hc'
  rw [h1, h2] at hw
  have e : after B s' (l ++ [.lprob d]) = (lprobCall B (after B s' l) d).1 := by
    unfold after
    rw [List.foldl_append]
    rfl
  rw [e]
  exact hw

/-- **C127 (refuted), also with explicit bounds.** In every model: after `prep_estim(linear=True)` and any calls, also `set_par` with explicit bounds, an evaluation of the
density with a finite value removes the constraint again. -/
theorem C127_density_refuted (B : Base K PP VV HX LS TT QQ RS RR CC) (s : Est K PP VV HX LS TT QQ RS RR CC) (x : Args)
    {s' : Est K PP VV HX LS TT QQ RS RR CC} (h : prepEstim B s x = (s', none)) (hx : x.set.linear = some (.bool true)) (l : List (EstEv K RR CC))
    (hl : ∀ e ∈ l, Spec.NoPrep e) (d : Call K) (hd : d.temp ≠ 0) {y : K} (hy : (lprobCall B (after B s' l) d).2 = .ok (.fin y)) :
    (after B s' (l ++ [.lprob d])).ob.a.lks = some (2, 0) := by
  have hb : Spec.prepBounds x.set = (1, 0) := by
    unfold Spec.prepBounds
    rw [hx]
    rfl
  rw [C127_density_bounds B s x h l hl d hd hy, hb]
  rfl

/-- `C127_density_refuted` in the model of `PrepEx`: `set_par(..., l_max=3, k_max=16)` takes effect, until the density is evaluated. -/
theorem C127_density_hypotheses_met :
    let s' := (prepEstim PrepEx.base PrepEx.fresh PrepEx.linOnly).1
    let l : List (EstEv ℚ ℚ ℚ) := [.setPar ⟨some 3, some 16, false⟩ (.vec [1, 0, 0]) none]
    (after PrepEx.base s' l).ob.a.lks = some (4, 16) ∧ (after PrepEx.base s' (l ++ [.lprob PrepEx.draw])).ob.a.lks = some (2, 0) := by
  refine ⟨by decide +kernel, ?_⟩
  exact C127_density_refuted PrepEx.base PrepEx.fresh PrepEx.linOnly (s' := (prepEstim PrepEx.base PrepEx.fresh PrepEx.linOnly).1)
    (Prod.ext rfl (by decide +kernel)) rfl _ (by
      intro e he
      simp only [List.mem_cons, List.not_mem_nil, or_false] at he
      subst he
      trivial) _ (by decide +kernel) (y := 903/8) (by decide +kernel)

end Pydsge
