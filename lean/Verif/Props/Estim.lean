import Verif.Model.Estim
import Verif.Lemmas.Params
import Mathlib.Algebra.Order.Ring.Rat
import Mathlib.Tactic.NormNum

/-!
# C44, C45: the posterior density
-/

set_option autoImplicit false
set_option linter.unusedSectionVars false
set_option linter.unusedSimpArgs false

namespace Pydsge

open Pydsge.Params Pydsge.Estim

variable {K PP VV HX LS TT QQ RS : Type} [Field K] [LinearOrder K]

/-! ## Specification -/

namespace Spec

/-- Two vectors differ at most at the positions of estimated parameters. -/
def AgreeOff {α : Type} (arg : List Nat) (v v' : List α) : Prop :=
  v.length = v'.length ∧ ∀ i, i ∉ arg → v[i]? = v'[i]?

/-- The complete set of attributes that belongs to the parameter vector `v`, every stage of the solution having succeeded. -/
structure Solved (U : Setup K PP VV HX LS TT QQ RS) (v : List K) (a : Attrs K PP VV HX LS TT QQ) : Prop where
  par : a.par = some v
  constVar : U.S.constVar = true
  stages : ∃ pp xb vv hx ls t,
    U.S.pcompile v = .ok pp ∧ U.S.xbar v = .ok xb ∧ ¬ 0 < xb ∧ U.S.mats pp = .ok () ∧ U.S.masks pp = .ok (vv, hx) ∧
    U.S.linear pp xb = .ok ls ∧ a.lks = some (if U.lMax < 2 ∧ 0 < U.kMax then 3 else U.lMax + 1, U.kMax) ∧
    U.S.tables pp xb (if U.lMax < 2 ∧ 0 < U.kMax then 3 else U.lMax + 1, U.kMax) = .ok t ∧
    a.ppar = some pp ∧ a.xbar = some xb ∧ a.vv = some vv ∧ a.hx = some hx ∧ a.sys = some ls ∧ a.tables = some t ∧
    a.filterQ = some (U.sq (U.S.cov pp))

/-- No stage is interrupted from the keyboard. -/
structure Quiet (U : Setup K PP VV HX LS TT QQ RS) : Prop where
  pcompile : ∀ v, U.S.pcompile v ≠ .error .keyboardInterrupt
  xbar : ∀ v, U.S.xbar v ≠ .error .keyboardInterrupt
  mats : ∀ p, U.S.mats p ≠ .error .keyboardInterrupt
  masks : ∀ p, U.S.masks p ≠ .error .keyboardInterrupt
  linear : ∀ p x, U.S.linear p x ≠ .error .keyboardInterrupt
  tables : ∀ p x l, U.S.tables p x l ≠ .error .keyboardInterrupt
  filter : ∀ a r, (U.filter a r).2 ≠ .error .keyboardInterrupt

/-- The parameter vector that `lprob` works on. -/
def working (U : Setup K PP VV HX LS TT QQ RS) (par : List K) (trans : Option Bool) : List K :=
  match trans with
  | some true => U.bptrans par
  | some false => par
  | none => if U.transform = true then U.bptrans par else par

end Spec

/-! ## Lemmas -/

theorem setMany_congr {α : Type} : ∀ (arg : List Nat) (w v v' : List α), w.length = arg.length → Spec.AgreeOff arg v v' →
    setMany v arg w = setMany v' arg w
  | [], w, v, v', _, h => by
    have : v = v' := List.ext_getElem? (fun i => h.2 i (by simp))
    rw [this]
  | i :: is, [], v, v', hl, _ => by simp at hl
  | i :: is, x :: xs, v, v', hl, h => by
    simp only [setMany]
    apply setMany_congr is xs _ _ (by simpa using hl)
    refine ⟨by simp [h.1], fun j hj => ?_⟩
    rw [List.getElem?_set, List.getElem?_set, h.1]
    split_ifs with hij
    · rfl
    · rfl
    · exact h.2 j (by simp [hj, Ne.symm hij])

theorem bcast_length {α : Type} {n : Nat} {w r : List α} (h : bcast n w = .ok r) : r.length = n := by
  unfold bcast at h
  split_ifs at h with hn
  · cases h; exact hn
  · split at h
    · cases h; simp
    · cases h

theorem fancySet_congr {α : Type} {arg : List Nat} {v v' : List α} (w : List α) (h : Spec.AgreeOff arg v v') :
    fancySet v arg w = fancySet v' arg w := by
  unfold fancySet
  rw [h.1]
  split_ifs
  · cases hb : bcast arg.length w with
    | error e => rfl
    | ok r => simp only; rw [setMany_congr arg r v v' (bcast_length hb) h]
  · rfl

theorem setMany_agree {α : Type} : ∀ (arg : List Nat) (v w : List α), Spec.AgreeOff arg (setMany v arg w) v := by
  intro arg v w
  exact ⟨setMany_length _ _ _, fun i hi => setMany_get_ne _ _ _ _ hi⟩

theorem fancySet_agree {α : Type} {arg : List Nat} {v w r : List α} (h : fancySet v arg w = .ok r) : Spec.AgreeOff arg r v := by
  unfold fancySet at h
  split_ifs at h
  split at h
  · cases h
  · cases h; exact setMany_agree _ _ _

theorem Spec.AgreeOff.trans {α : Type} {arg : List Nat} {u v w : List α} (h : Spec.AgreeOff arg u v) (h' : Spec.AgreeOff arg v w) :
    Spec.AgreeOff arg u w := ⟨h.1.trans h'.1, fun i hi => (h.2 i hi).trans (h'.2 i hi)⟩

theorem Spec.AgreeOff.symm {α : Type} {arg : List Nat} {u v : List α} (h : Spec.AgreeOff arg u v) : Spec.AgreeOff arg v u :=
  ⟨h.1.symm, fun i hi => (h.2 i hi).symm⟩

theorem Spec.AgreeOff.refl {α : Type} (arg : List Nat) (u : List α) : Spec.AgreeOff arg u u := ⟨rfl, fun _ _ => rfl⟩

theorem newLks_explicit (l k : Int) (prev : Option (Int × Int)) :
    GenSys.newLks (some l) (some k) prev = .ok (if l < 2 ∧ 0 < k then 3 else l + 1, k) := by
  unfold GenSys.newLks
  by_cases h1 : l < 2 <;> by_cases h2 : 0 < k <;> simp [h1, h2]

section
variable (U : Setup K PP VV HX LS TT QQ RS)

/-- A solution attempt with explicit bounds: success and exception do not depend on what was there before, and on success
nothing is left of it. -/
theorem genSysYaml_congr (a a' : Attrs K PP VV HX LS TT QQ) (v : List K) :
    (genSysYaml U.S U.D ⟨some U.lMax, some U.kMax, false⟩ a (some v)).2 =
      (genSysYaml U.S U.D ⟨some U.lMax, some U.kMax, false⟩ a' (some v)).2 ∧
    ((genSysYaml U.S U.D ⟨some U.lMax, some U.kMax, false⟩ a (some v)).2 = none →
      ∃ q, (genSysYaml U.S U.D ⟨some U.lMax, some U.kMax, false⟩ a (some v)).1 =
        { (genSysYaml U.S U.D ⟨some U.lMax, some U.kMax, false⟩ a' (some v)).1 with filterQ := q }) := by
  unfold genSysYaml
  simp only [newLks_explicit]
  cases hc : U.S.pcompile v with
  | error e => simp
  | ok pp =>
    cases hv : U.S.constVar with
    | false => simp
    | true =>
      cases hx : U.S.xbar v with
      | error e => simp
      | ok xb =>
        by_cases hp : xb > 0
        · simp [hp]
        · cases hm : U.S.mats pp with
          | error e => simp [hp, hm]
          | ok _ =>
            cases hk : U.S.masks pp with
            | error e => simp [hp, hm, hk]
            | ok vh =>
              cases hl : U.S.linear pp xb with
              | error e => simp [hp, hm, hk, hl]
              | ok ls =>
                cases ht : U.S.tables pp xb (if U.lMax < 2 ∧ 0 < U.kMax then 3 else U.lMax + 1, U.kMax) with
                | error e => simp [hp, hm, hk, hl, ht]
                | ok t => simp [hp, hm, hk, hl, ht]

/-- On success the attributes (and the covariance set afterwards) are those of a complete solution. -/
theorem genSysYaml_solved (a : Attrs K PP VV HX LS TT QQ) (v : List K)
    (h : (genSysYaml U.S U.D ⟨some U.lMax, some U.kMax, false⟩ a (some v)).2 = none) :
    ∃ pp, (genSysYaml U.S U.D ⟨some U.lMax, some U.kMax, false⟩ a (some v)).1.ppar = some pp ∧
      Spec.Solved U v { (genSysYaml U.S U.D ⟨some U.lMax, some U.kMax, false⟩ a (some v)).1 with
        filterQ := some (U.sq (U.S.cov pp)) } := by
  revert h
  unfold genSysYaml
  simp only [newLks_explicit]
  cases hc : U.S.pcompile v with
  | error e => simp
  | ok pp =>
    cases hv : U.S.constVar with
    | false => simp
    | true =>
      cases hx : U.S.xbar v with
      | error e => simp
      | ok xb =>
        by_cases hp : xb > 0
        · simp [hp]
        · cases hm : U.S.mats pp with
          | error e => simp [hp, hm]
          | ok u =>
            cases hk : U.S.masks pp with
            | error e => simp [hp, hm, hk]
            | ok vh =>
              cases hl : U.S.linear pp xb with
              | error e => simp [hp, hm, hk, hl]
              | ok ls =>
                cases ht : U.S.tables pp xb (if U.lMax < 2 ∧ 0 < U.kMax then 3 else U.lMax + 1, U.kMax) with
                | error e => simp [hp, hm, hk, hl, ht]
                | ok t =>
                  intro _
                  refine ⟨pp, by simp [hp, hm, hk, hl, ht], ?_⟩
                  refine ⟨by simp [hp, hm, hk, hl, ht], hv, pp, xb, vh.1, vh.2, ls, t, hc, hx, hp, hm, hk, hl, ?_⟩
                  simp [hp, hm, hk, hl, ht]

/-- A complete solution is found if there is one. -/
theorem genSysYaml_of_solved (a : Attrs K PP VV HX LS TT QQ) (v : List K) {b : Attrs K PP VV HX LS TT QQ} (h : Spec.Solved U v b) :
    (genSysYaml U.S U.D ⟨some U.lMax, some U.kMax, false⟩ a (some v)).2 = none ∧
    ∃ pp, (genSysYaml U.S U.D ⟨some U.lMax, some U.kMax, false⟩ a (some v)).1.ppar = some pp ∧
      { (genSysYaml U.S U.D ⟨some U.lMax, some U.kMax, false⟩ a (some v)).1 with filterQ := some (U.sq (U.S.cov pp)) } = b := by
  obtain ⟨h1, h2, pp, xb, vv, hx, ls, t, h3, h4, h5, h6, h7, h8, h9, h10, h11, h12, h13, h14, h15, h16, h17⟩ := h
  obtain ⟨b1, b2, b3, b4, b5, b6, b7, b8, b9⟩ := b
  simp only at h1 h9 h11 h12 h13 h14 h15 h16 h17
  subst h1 h9 h11 h12 h13 h14 h15 h16 h17
  have h5' : ¬ xb > 0 := h5
  unfold genSysYaml
  simp only [newLks_explicit, h2, h3, h4, h6, h7, h8, h10, if_neg h5', Bool.not_true, Bool.false_eq_true, if_false]
  exact ⟨trivial, pp, rfl, rfl⟩

/-- A solution attempt that is not interrupted does not end with an interrupt. -/
theorem genSysYaml_quiet (hq : Spec.Quiet U) (a : Attrs K PP VV HX LS TT QQ) (v : List K) :
    (genSysYaml U.S U.D ⟨some U.lMax, some U.kMax, false⟩ a (some v)).2 ≠ some .keyboardInterrupt := by
  unfold genSysYaml
  simp only [newLks_explicit]
  cases hc : U.S.pcompile v with
  | error e => intro h; simp at h; exact hq.pcompile v (by rw [hc, h])
  | ok pp =>
    cases hv : U.S.constVar with
    | false => simp
    | true =>
      cases hx : U.S.xbar v with
      | error e => intro h; simp at h; exact hq.xbar v (by rw [hx, h])
      | ok xb =>
        by_cases hp : xb > 0
        · simp [hp]
        · cases hm : U.S.mats pp with
          | error e => intro h; simp [hp, hm] at h; exact hq.mats pp (by rw [hm, h])
          | ok _ =>
            cases hk : U.S.masks pp with
            | error e => intro h; simp [hp, hm, hk] at h; exact hq.masks pp (by rw [hk, h])
            | ok vh =>
              cases hl : U.S.linear pp xb with
              | error e => intro h; simp [hp, hm, hk, hl] at h; exact hq.linear pp xb (by rw [hl, h])
              | ok ls =>
                cases ht : U.S.tables pp xb (if U.lMax < 2 ∧ 0 < U.kMax then 3 else U.lMax + 1, U.kMax) with
                | error e => intro h; simp [hp, hm, hk, hl, ht] at h; exact hq.tables _ _ _ (by rw [ht, h])
                | ok t => simp [hp, hm, hk, hl, ht]

theorem getLL_of (a : Attrs K PP VV HX LS TT QQ) (r : RS) : (getLL U a r).2 = match (U.filter a r).2 with
    | .error e => .error e
    | .ok .nan => .ok .ninf
    | .ok x => .ok x := by
  unfold getLL
  rcases h : U.filter a r with ⟨r', res⟩
  cases res with
  | error e => rfl
  | ok x => cases x <;> rfl

end

section
variable (U : Setup K PP VV HX LS TT QQ RS)

theorem llikeBody_parFix (w : World K PP VV HX LS TT QQ RS) (par : List K) :
    Spec.AgreeOff U.arg (llikeBody U w par).1.parFix w.parFix := by
  unfold llikeBody
  simp only
  cases hf : fancySet w.parFix U.arg par with
  | error e => exact .refl _ _
  | ok v =>
    have h := fancySet_agree hf
    simp only
    split
    · exact h
    · exact h

theorem llike_parFix (w : World K PP VV HX LS TT QQ RS) (par : List K) :
    Spec.AgreeOff U.arg (llike U w par).1.parFix w.parFix := by
  have h := llikeBody_parFix U w par
  unfold llike
  split <;> rename_i hb <;> rw [hb] at h <;> exact h

theorem llikeBody_value (w w' : World K PP VV HX LS TT QQ RS) (par : List K) (h : Spec.AgreeOff U.arg w.parFix w'.parFix) :
    (llikeBody U w par).2 = (llikeBody U w' par).2 := by
  unfold llikeBody
  simp only
  rw [fancySet_congr par h]
  cases hf : fancySet w'.parFix U.arg par with
  | error e => rfl
  | ok v =>
    simp only
    obtain ⟨h1, h2⟩ := genSysYaml_congr U w.a w'.a v
    rcases hg : genSysYaml U.S U.D ⟨some U.lMax, some U.kMax, false⟩ w.a (some v) with ⟨a, o⟩
    rcases hg' : genSysYaml U.S U.D ⟨some U.lMax, some U.kMax, false⟩ w'.a (some v) with ⟨a', o'⟩
    rw [hg, hg'] at h1 h2
    simp only at h1 h2
    subst h1
    cases o with
    | some e => rfl
    | none =>
      obtain ⟨q, hq⟩ := h2 rfl
      obtain ⟨pp, hpp, _⟩ := genSysYaml_solved U w.a v (by rw [hg])
      rw [hg] at hpp
      simp only at hpp
      have hpp' : a'.ppar = some pp := by rw [hq] at hpp; exact hpp
      simp only [hpp, hpp']
      rw [hq]

theorem llike_value (w w' : World K PP VV HX LS TT QQ RS) (par : List K) (h : Spec.AgreeOff U.arg w.parFix w'.parFix) :
    (llike U w par).2 = (llike U w' par).2 := by
  have hv := llikeBody_value U w w' par h
  unfold llike
  rcases h1 : llikeBody U w par with ⟨a, r⟩
  rcases h2 : llikeBody U w' par with ⟨a', r'⟩
  rw [h1, h2] at hv
  simp only at hv
  subst hv
  cases r with
  | ok x => rfl
  | error e => cases e <;> rfl

theorem lprob_parFix (w : World K PP VV HX LS TT QQ RS) (par : List K) (temp : K) (tr : Option Bool) :
    Spec.AgreeOff U.arg (lprob U w par temp tr).1.parFix w.parFix := by
  unfold lprob
  simp only
  generalize (if tr.getD U.transform = true then U.bptrans par else par) = p
  split_ifs with h1 h2
  · exact .refl _ _
  · have h := llike_parFix U w p
    rcases hl : llike U w p with ⟨w', r⟩
    rw [hl] at h
    cases r with
    | error e => exact h
    | ok l =>
      simp only
      split_ifs <;> exact h
  · simp [XNum.isInf]
    exact .refl _ _

theorem lprob_value (w w' : World K PP VV HX LS TT QQ RS) (par : List K) (temp : K) (tr : Option Bool)
    (h : Spec.AgreeOff U.arg w.parFix w'.parFix) : (lprob U w par temp tr).2 = (lprob U w' par temp tr).2 := by
  unfold lprob
  simp only
  generalize (if tr.getD U.transform = true then U.bptrans par else par) = p
  split_ifs with h1 h2
  · rfl
  · have hv := llike_value U w w' p h
    rcases hl : llike U w p with ⟨u, r⟩
    rcases hl' : llike U w' p with ⟨u', r'⟩
    rw [hl, hl'] at hv
    simp only at hv
    subst hv
    cases r with
    | error e => rfl
    | ok l =>
      simp only
      split_ifs <;> rfl
  · simp [XNum.isInf]

end

/-! ## C44 -/

/-- **C44 (first half).** A call of `lprob` that is not interrupted from the keyboard leaves numpy's generator as it was,
whether the likelihood could be evaluated or not. -/
theorem C44_generator (U : Setup K PP VV HX LS TT QQ RS) (w : World K PP VV HX LS TT QQ RS) (par : List K) (temp : K)
    (tr : Option Bool) (h : (lprob U w par temp tr).2 ≠ .error .keyboardInterrupt) : (lprob U w par temp tr).1.rng = w.rng := by
  revert h
  unfold lprob
  simp only
  generalize (if tr.getD U.transform = true then U.bptrans par else par) = p
  split_ifs with h1 h2
  · intro _; rfl
  · have key : ∀ p, (llike U w p).2 ≠ .error .keyboardInterrupt → (llike U w p).1.rng = w.rng := by
      intro p
      unfold llike
      split
      · intro _; rfl
      · intro h; exact absurd rfl h
      · intro _; rfl
    have kp := key p
    rcases hl : llike U w p with ⟨u, r⟩
    rw [hl] at kp
    cases r with
    | error e => intro h; exact kp h
    | ok l =>
      have := kp (by simp)
      simp only
      split_ifs <;> (intro _; exact this)
  · intro _
    simp [XNum.isInf]

/-- **C44 (first half, sequences).** The generator is as before after any sequence of calls without an interrupt. -/
theorem C44_generator_sequence (U : Setup K PP VV HX LS TT QQ RS) (hq : Spec.Quiet U) :
    ∀ (l : List (Call K)) (w : World K PP VV HX LS TT QQ RS), (afterCalls U w l).rng = w.rng
  | [], w => rfl
  | c :: l, w => by
    have h : (lprob U w c.par c.temp c.trans).2 ≠ .error .keyboardInterrupt := by
      unfold lprob
      simp only
      generalize (if c.trans.getD U.transform = true then U.bptrans c.par else c.par) = p
      split_ifs with h1 h2
      · simp
      · have key : ∀ p, (llike U w p).2 ≠ .error .keyboardInterrupt := by
          intro p
          have hb : (llikeBody U w p).2 ≠ .error .keyboardInterrupt := by
            unfold llikeBody
            simp only
            cases hf : fancySet w.parFix U.arg p with
            | error e =>
              intro h
              unfold fancySet at hf
              split_ifs at hf
              · unfold bcast at hf
                split_ifs at hf
                split at hf
                · rename_i hb
                  split at hb
                  · cases hb
                  · cases hb; cases hf; simp at h
                · cases hf
              · cases hf; simp at h
            | ok v =>
              have hg := genSysYaml_quiet U hq w.a v
              simp only
              rcases hgg : genSysYaml U.S U.D ⟨some U.lMax, some U.kMax, false⟩ w.a (some v) with ⟨a, o⟩
              rw [hgg] at hg
              cases o with
              | some e => simpa using hg
              | none =>
                simp only
                rw [getLL_of]
                intro h
                split at h
                · rename_i he
                  rw [h] at he
                  exact hq.filter _ _ he
                · cases h
                · cases h
          unfold llike
          rcases hl : llikeBody U w p with ⟨u, r⟩
          rw [hl] at hb
          cases r with
          | ok x => simp
          | error e => cases e <;> simp_all
        have kp := key p
        rcases hl : llike U w p with ⟨u, r⟩
        rw [hl] at kp
        cases r with
        | error e => exact kp
        | ok l =>
          simp only
          split_ifs <;> simp
      · simp [XNum.isInf]
    have hr := C44_generator U w c.par c.temp c.trans h
    have := C44_generator_sequence U hq l (lprob U w c.par c.temp c.trans).1
    simpa [afterCalls, hr] using this

/-- **C44 (second half).** After any sequence of calls, interrupted ones included, `lprob` returns what it would have returned
without them. -/
theorem C44_history (U : Setup K PP VV HX LS TT QQ RS) (w : World K PP VV HX LS TT QQ RS) (l : List (Call K)) (c : Call K) :
    (lprob U (afterCalls U w l) c.par c.temp c.trans).2 = (lprob U w c.par c.temp c.trans).2 := by
  apply lprob_value
  induction l generalizing w with
  | nil => exact .refl _ _
  | cons d l ih => exact (ih (lprob U w d.par d.temp d.trans).1).trans (lprob_parFix U w d.par d.temp d.trans)

/-- **C44 (second half, other methods).** Nor does the value depend on the state of `self` or of the generator that `lprob` is
called in: attributes and generator may have been changed in any way by other methods in the meantime. (The filter object is part of `U` here: methods that
replace it are in `Props/PrepEstim`, C126.) -/
theorem C44_state (U : Setup K PP VV HX LS TT QQ RS) (w : World K PP VV HX LS TT QQ RS) (r : RS) (a : Attrs K PP VV HX LS TT QQ)
    (c : Call K) : (lprob U { w with rng := r, a := a } c.par c.temp c.trans).2 = (lprob U w c.par c.temp c.trans).2 :=
  lprob_value U _ _ _ _ _ (.refl _ _)

/-! ## C45 -/

/-- **C45 (prior).** If the prior density is infinite, `lprob` returns it and touches nothing. -/
theorem C45_prior (U : Setup K PP VV HX LS TT QQ RS) (w : World K PP VV HX LS TT QQ RS) (par : List K) (temp : K) (tr : Option Bool)
    (h : U.lprior (Spec.working U par tr) = .ninf ∨ U.lprior (Spec.working U par tr) = .pinf) :
    lprob U w par temp tr = (w, .ok (U.lprior (Spec.working U par tr))) := by
  have hw : (if tr.getD U.transform = true then U.bptrans par else par) = Spec.working U par tr := by
    rcases tr with _ | _ | _ <;> rfl
  unfold lprob
  simp only [hw]
  rcases h with h | h <;> simp [h, XNum.isInf]

/-- **C45 (temperature zero).** The prior alone; the filter is not run and nothing is touched. -/
theorem C45_zero (U : Setup K PP VV HX LS TT QQ RS) (w : World K PP VV HX LS TT QQ RS) (par : List K) (tr : Option Bool) :
    lprob U w par 0 tr = (w, .ok (U.lprior (Spec.working U par tr))) := by
  have hw : (if tr.getD U.transform = true then U.bptrans par else par) = Spec.working U par tr := by
    rcases tr with _ | _ | _ <;> rfl
  unfold lprob
  simp only [hw]
  cases hp : U.lprior (Spec.working U par tr) <;> simp [hp, XNum.isInf, XNum.add]

/-- What `llike` returns, on a vector of the right length, if all is solved. -/
theorem llike_solved (U : Setup K PP VV HX LS TT QQ RS) (w : World K PP VV HX LS TT QQ RS) (p : List K) {v : List K}
    (hv : fancySet w.parFix U.arg p = .ok v) {b : Attrs K PP VV HX LS TT QQ} (hb : Spec.Solved U v b) :
    (llikeBody U w p).2 = (getLL U b U.seedState).2 := by
  unfold llikeBody
  obtain ⟨h1, pp, h2, h3⟩ := genSysYaml_of_solved U w.a v hb
  simp only [hv]
  rcases hg : genSysYaml U.S U.D ⟨some U.lMax, some U.kMax, false⟩ w.a (some v) with ⟨a, o⟩
  rw [hg] at h1 h2 h3
  simp only at h1 h2 h3
  subst h1
  simp only [h2]
  rw [← h3, h2]

theorem lprob_of_llike (U : Setup K PP VV HX LS TT QQ RS) (w : World K PP VV HX LS TT QQ RS) (par : List K) {temp : K} (ht : temp ≠ 0)
    (tr : Option Bool) (hp : (U.lprior (Spec.working U par tr)).isInf = false) {x : XNum K}
    (hl : (llike U w (Spec.working U par tr)).2 = .ok x) :
    (lprob U w par temp tr).2 = .ok (if (x.smul temp).isInf then x.smul temp else (x.smul temp).add (U.lprior (Spec.working U par tr))) := by
  have hw : (if tr.getD U.transform = true then U.bptrans par else par) = Spec.working U par tr := by
    rcases tr with _ | _ | _ <;> rfl
  unfold lprob
  simp only [hw]
  rcases hh : llike U w (Spec.working U par tr) with ⟨u, r⟩
  rw [hh] at hl
  simp only at hl
  subst hl
  simp only [hp, ht, ne_eq, not_false_eq_true, if_true, Bool.false_eq_true, if_false]
  split_ifs <;> rfl

/-- `v` is `base` with the entries at the positions `arg` replaced by those of `w`. -/
structure Spec.Replaced {α : Type} (base : List α) (arg : List Nat) (w v : List α) : Prop where
  length : v.length = base.length
  at_arg : ∀ j i : Nat, arg[j]? = some i → v[i]? = w[j]?
  off_arg : ∀ i : Nat, i ∉ arg → v[i]? = base[i]?

theorem replaced_setMany {α : Type} {base : List α} {arg : List Nat} {w : List α} (hn : arg.Nodup) (hl : w.length = arg.length)
    (hb : ∀ i ∈ arg, i < base.length) : Spec.Replaced base arg w (setMany base arg w) :=
  ⟨setMany_length _ _ _, setMany_get _ _ _ hn hl.symm hb, setMany_get_ne _ _ _⟩

theorem Spec.Replaced.unique {α : Type} {base : List α} {arg : List Nat} {w v v' : List α} (h : Spec.Replaced base arg w v)
    (h' : Spec.Replaced base arg w v') : v = v' := by
  apply List.ext_getElem?
  intro i
  by_cases hi : i ∈ arg
  · obtain ⟨j, hj, hji⟩ := List.getElem_of_mem hi
    have hj' : arg[j]? = some i := by rw [List.getElem?_eq_getElem hj, hji]
    rw [h.at_arg j i hj', h'.at_arg j i hj']
  · rw [h.off_arg i hi, h'.off_arg i hi]

/-- **C45 (value).** The model is solved for the parameter vector `v` (the fixed parameters, with the estimated ones replaced), with all
attributes `b` of that solution, and the filter, run on them from the given seed, returns the finite number `x`: `lprob` returns
`temp * x` plus the prior (NaN, if the prior is). -/
theorem C45_value (U : Setup K PP VV HX LS TT QQ RS) (w : World K PP VV HX LS TT QQ RS) (par : List K) {temp : K} (ht : 0 < temp)
    (tr : Option Bool) (hnd : U.arg.Nodup) (hargs : ∀ i ∈ U.arg, i < w.parFix.length) (hlen : (Spec.working U par tr).length = U.arg.length)
    {v : List K} (hv : Spec.Replaced w.parFix U.arg (Spec.working U par tr) v) (b : Attrs K PP VV HX LS TT QQ) (hb : Spec.Solved U v b)
    {x : K} (hx : (U.filter b U.seedState).2 = .ok (.fin x)) :
    (∀ y, U.lprior (Spec.working U par tr) = .fin y → (lprob U w par temp tr).2 = .ok (.fin (temp * x + y))) ∧
    (U.lprior (Spec.working U par tr) = .nan → (lprob U w par temp tr).2 = .ok .nan) := by
  obtain rfl := hv.unique (replaced_setMany hnd hlen hargs)
  have hl : (llike U w (Spec.working U par tr)).2 = .ok (.fin x) := by
    have h := llike_solved U w _ (fancySet_ok _ _ _ hargs hlen) hb
    rw [getLL_of, hx] at h
    unfold llike
    rcases hh : llikeBody U w (Spec.working U par tr) with ⟨u, r⟩
    rw [hh] at h
    simp only at h
    subst h
    rfl
  constructor
  · intro y hy
    rw [lprob_of_llike U w par (ne_of_gt ht) tr (by rw [hy]; rfl) hl, hy]
    simp [XNum.smul, XNum.isInf, XNum.add, mul_comm]
  · intro hy
    rw [lprob_of_llike U w par (ne_of_gt ht) tr (by rw [hy]; rfl) hl, hy]
    simp [XNum.smul, XNum.isInf, XNum.add, mul_comm]

/-- **C45 (failures).** The prior is finite or NaN. If there is no complete solution for the parameters, or the filter fails, or its
result is NaN or minus infinity, `lprob` returns minus infinity; none of the failures is passed on. -/
theorem C45_failure (U : Setup K PP VV HX LS TT QQ RS) (hq : Spec.Quiet U) (w : World K PP VV HX LS TT QQ RS) (par : List K) {temp : K}
    (ht : 0 < temp) (tr : Option Bool)
    (hp : U.lprior (Spec.working U par tr) ≠ .ninf ∧ U.lprior (Spec.working U par tr) ≠ .pinf)
    (hnd : U.arg.Nodup) (hargs : ∀ i ∈ U.arg, i < w.parFix.length) (hlen : (Spec.working U par tr).length = U.arg.length)
    {v : List K} (hv : Spec.Replaced w.parFix U.arg (Spec.working U par tr) v)
    (hf : ∀ b, Spec.Solved U v b →
      (∃ e, (U.filter b U.seedState).2 = .error e) ∨ (U.filter b U.seedState).2 = .ok .nan ∨ (U.filter b U.seedState).2 = .ok .ninf) :
    (lprob U w par temp tr).2 = .ok .ninf := by
  obtain rfl := hv.unique (replaced_setMany hnd hlen hargs)
  have hl : (llike U w (Spec.working U par tr)).2 = .ok .ninf := by
    have hb : (llikeBody U w (Spec.working U par tr)).2 = .ok .ninf ∨
        ∃ e, e ≠ .keyboardInterrupt ∧ (llikeBody U w (Spec.working U par tr)).2 = .error e := by
      by_cases hs : (genSysYaml U.S U.D ⟨some U.lMax, some U.kMax, false⟩ w.a
          (some (setMany w.parFix U.arg (Spec.working U par tr)))).2 = none
      · obtain ⟨pp, _, hb⟩ := genSysYaml_solved U w.a _ hs
        have h := llike_solved U w _ (fancySet_ok _ _ _ hargs hlen) hb
        rw [getLL_of] at h
        rcases hf _ hb with ⟨e, he⟩ | he | he
        · right
          refine ⟨e, ?_, by rw [h, he]⟩
          rintro rfl
          exact hq.filter _ _ he
        · left; rw [h, he]
        · left; rw [h, he]
      · right
        obtain ⟨e, he⟩ := Option.ne_none_iff_exists'.1 hs
        refine ⟨e, ?_, ?_⟩
        · rintro rfl
          exact genSysYaml_quiet U hq _ _ he
        · unfold llikeBody
          simp only [fancySet_ok _ _ _ hargs hlen]
          rcases hg : genSysYaml U.S U.D ⟨some U.lMax, some U.kMax, false⟩ w.a
            (some (setMany w.parFix U.arg (Spec.working U par tr))) with ⟨a, o⟩
          rw [hg] at he
          simp only at he
          subst he
          rfl
    unfold llike
    rcases hh : llikeBody U w (Spec.working U par tr) with ⟨u, r⟩
    rw [hh] at hb
    simp only at hb
    rcases hb with rfl | ⟨e, he, rfl⟩
    · rfl
    · cases e <;> simp_all
  have hp' : (U.lprior (Spec.working U par tr)).isInf = false := by
    cases h : U.lprior (Spec.working U par tr) <;> simp_all [XNum.isInf]
  rw [lprob_of_llike U w par (ne_of_gt ht) tr hp' hl]
  simp [XNum.smul, XNum.isInf, ht]

/-- **C45 (total).** The only exception that leaves `lprob` is an interrupt from the keyboard. -/
theorem C45_total (U : Setup K PP VV HX LS TT QQ RS) (w : World K PP VV HX LS TT QQ RS) (par : List K) (temp : K) (tr : Option Bool)
    {e : PyErr} (h : (lprob U w par temp tr).2 = .error e) : e = .keyboardInterrupt := by
  revert h
  unfold lprob
  simp only
  generalize (if tr.getD U.transform = true then U.bptrans par else par) = p
  split_ifs with h1 h2
  · simp
  · have key : ∀ p e, (llike U w p).2 = .error e → e = .keyboardInterrupt := by
      intro p e
      unfold llike
      split
      · simp
      · intro h; cases h; rfl
      · simp
    have kp := key p
    rcases hl : llike U w p with ⟨u, r⟩
    rw [hl] at kp
    cases r with
    | error e' => intro h; exact kp e h
    | ok l =>
      simp only
      split_ifs <;> simp
  · simp [XNum.isInf]

/-! ## Example

Three parameters of which the last two are estimated. The model has no solution if the second is above one, the likelihood is NaN
if the third is zero, and the filter fails if the third is negative. -/

namespace EstimEx

def dec : Decl ℚ := ⟨["a", "b", "c"], [1, 0, 0], [], fun _ => [], none⟩

def sol : Solver ℚ (List ℚ) Unit Unit ℚ ℚ ℚ where
  pcompile v := .ok v
  constVar := true
  xbar _ := .ok (-1)
  vv0 := ()
  mats _ := .ok ()
  masks _ := .ok ((), ())
  linear v _ := if v.getD 1 0 > 1 then .error .linAlg else .ok (v.getD 1 0)
  tables v _ l := .ok (v.sum + l.1 + l.2)
  cov v := v.getD 2 0

def setup : Setup ℚ (List ℚ) Unit Unit ℚ ℚ ℚ Nat where
  S := sol
  D := dec
  arg := [1, 2]
  lMax := 3
  kMax := 16
  sq q := q * q
  seedState := 7
  filter a r := (r + 1, match a.par, a.tables, a.filterQ with
    | some v, some t, some q => if v.getD 2 0 = 0 then .ok .nan else if v.getD 2 0 < 0 then .error .linAlg else .ok (.fin (t + q + r))
    | _, _, _ => .error .attributeError)
  lprior v := if v.getD 1 0 > 5 then .ninf else .fin (v.sum / 2)
  bptrans v := v.map (· + 1)
  transform := false

def w0 : World ℚ (List ℚ) Unit Unit ℚ ℚ ℚ Nat := ⟨42, ⟨none, none, none, none, none, none, none, none, none⟩, [1, 0, 0]⟩

theorem quiet : Spec.Quiet setup where
  pcompile v := by simp [setup, sol]
  xbar v := by simp [setup, sol]
  mats p := by simp [setup, sol]
  masks p := by simp [setup, sol]
  linear p x := by simp only [setup, sol]; split_ifs <;> simp
  tables p x l := by simp [setup, sol]
  filter a r := by
    simp only [setup]
    split
    · split_ifs <;> simp
    · simp

/-- The solution at `(1/2, 2)`. -/
def b0 : Attrs ℚ (List ℚ) Unit Unit ℚ ℚ ℚ :=
  ⟨some [1, 1/2, 2], some [1, 1/2, 2], some (-1), some (), some (4, 16), some (), some (1/2), some (47/2), some 4⟩

theorem b0_solved : Spec.Solved setup [1, 1/2, 2] b0 where
  par := rfl
  constVar := rfl
  stages := ⟨[1, 1/2, 2], -1, (), (), 1/2, 47/2, rfl, rfl, by norm_num, rfl, rfl, by decide +kernel, rfl, by decide +kernel, rfl, rfl, rfl,
    rfl, rfl, rfl, by decide +kernel⟩

/-- `C45_value` at this point and temperature one half: `(47/2 + 4 + 7) / 2 + 5/4`. -/
example : (lprob setup w0 [1/2, 2] (1/2) none).2 = .ok (.fin (37/2)) := by
  have h := C45_value setup w0 [1/2, 2] (temp := 1/2) (by norm_num) none (by decide) (by decide +kernel) rfl
    (replaced_setMany (by decide) rfl (by decide +kernel)) b0 b0_solved
    (x := 69/2) (by decide +kernel)
  rw [h.1 (5/4) (by decide +kernel)]
  norm_num

/-- `C45_failure`: no solution (second parameter above one), NaN (third zero), failing filter (third negative). -/
example : (lprob setup w0 [2, 2] 1 none).2 = .ok .ninf :=
  C45_failure setup quiet w0 [2, 2] (by norm_num) none (by decide +kernel) (by decide) (by decide +kernel) rfl
    (replaced_setMany (by decide) rfl (by decide +kernel)) (by
    rintro b ⟨_, _, pp, xb, vv, hx, ls, t, h1, _, _, _, _, h2, _⟩
    exfalso
    simp only [setup, sol, Except.ok.injEq] at h1
    subst h1
    revert h2
    simp [setup, sol, Spec.working, w0, setMany])

example : (lprob setup w0 [0, 0] 1 none).2 = .ok .ninf ∧ (lprob setup w0 [0, -1] 1 none).2 = .ok .ninf := by decide +kernel

/-- `C45_prior`, `C45_zero` and the transformation. -/
example : (lprob setup w0 [0, 6] 1 none).2 = .ok .ninf ∧ (lprob setup w0 [2, 2] 0 none).2 = .ok (.fin 2) ∧
    (lprob setup w0 [-1/2, 1] (1/2) (some true)).2 = .ok (.fin (37/2)) := by decide +kernel

/-- `C44`: a failing and a successful call before; the generator is unchanged, other things are not. -/
example : (afterCalls setup w0 [⟨[2, 2], 1, none⟩, ⟨[1/2, 2], 1, none⟩]).rng = 42 :=
  C44_generator_sequence setup quiet _ _

example : (afterCalls setup w0 [⟨[2, 2], 1, none⟩, ⟨[1/2, 3], 1, none⟩]).parFix = [1, 1/2, 3] ∧
    (afterCalls setup w0 [⟨[2, 2], 1, none⟩, ⟨[1/2, 3], 1, none⟩]).a.filterQ = some 9 := by decide +kernel

end EstimEx
end Pydsge
