import Verif.Model.GetCov
import Verif.Props.ParSets
import Verif.Props.LastWins
import Mathlib.Data.Matrix.Diagonal
import Mathlib.Data.Matrix.Mul

/-!
# C180: `get_cov`
-/

set_option autoImplicit false
set_option linter.unusedSectionVars false
set_option linter.unusedSimpArgs false

namespace Pydsge

open Pydsge.Params

variable {K PP VV HX LS TT QQ : Type}

section
variable [Field K] [LinearOrder K] {S : Solver K PP VV HX LS TT QQ} {D : Decl K} {dr : Draws K} {g : GenArgs} {sq : QQ → QQ}
  {ob : Obj K PP VV HX LS TT QQ}

/-- The parameters that are meant if the current ones are `cur` and the argument is `npar`: the current ones without an argument, the argument if
it has a value for every parameter, and the current ones with new values for the estimated parameters if it has as many values as these. -/
def Spec.ParsMeant (D : Decl K) (cur : List K) : Option (List K) → List K → Prop
  | none, v => v = cur
  | some w, v => (w.length = D.names.length ∧ v = w) ∨
    (w.length ≠ D.names.length ∧ ∃ p, D.prior = some p ∧ w.length = p.names.length ∧ v.length = D.names.length ∧
      (∀ (j i : Nat) (s : String), p.names[j]? = some s → D.names[i]? = some s → v[i]? = w[j]?) ∧
      ∀ (i : Nat) (s : String), D.names[i]? = some s → s ∉ p.names → v[i]? = cur[i]?)

theorem startPars_meant (h : WF D) {cur : List K} (hc : ob.a.par = some cur) (hl : cur.length = D.names.length) (npar : Option (List K))
    (hn : ∀ w, npar = some w → w.length = D.names.length ∨ ∃ p, D.prior = some p ∧ w.length = p.names.length) :
    ∃ v, Spec.ParsMeant D cur npar v ∧ startPars S D g ob npar = (ob, .ok v) := by
  cases npar with
  | none =>
    refine ⟨cur, rfl, ?_⟩
    unfold startPars
    simp only [hc]
  | some w =>
    by_cases hw : w.length = D.names.length
    · refine ⟨w, .inl ⟨hw, rfl⟩, ?_⟩
      unfold startPars
      simp only [hc, h.len, hw, ne_eq, not_true_eq_false, if_false]
    · obtain hw' | ⟨p, hp, hwp⟩ := hn w rfl
      · exact absurd hw' hw
      · have hal : w.length = p.arg.length := by rw [h.argLen hp, hwp]
        have hb : ∀ i ∈ p.arg, i < cur.length := by rw [hl]; exact h.bound hp
        obtain ⟨hpn, harg, hsub⟩ := h.prior p hp
        refine ⟨setMany cur p.arg w, .inr ⟨hw, p, hp, hwp, by rw [setMany_length, hl], ?_, ?_⟩, ?_⟩
        · intro j i s hj hi
          apply setMany_get _ _ _ (h.argNodup hp) hal.symm hb
          rw [harg, List.getElem?_map, hj, Option.map_some, Option.some.injEq]
          obtain ⟨hi', hi''⟩ := List.getElem?_eq_some_iff.1 hi
          rw [← hi'']
          exact h.nodup.idxOf_getElem i hi'
        · intro i s hi hns
          apply setMany_get_ne
          rw [harg, List.mem_map]
          rintro ⟨s', hs', rfl⟩
          obtain ⟨hi', hi''⟩ := List.getElem?_eq_some_iff.1 hi
          rw [List.getElem_idxOf hi'] at hi''
          exact hns (hi'' ▸ hs')
        · unfold startPars
          simp only [hc, h.len, assignPrior, hp, fancySet_ok _ _ _ hb hal]
          rw [if_pos hw]

theorem getCov_eq (hn : "cov_mat" ∉ D.names) (hf : "cov_mat" ∉ D.pfNames) {npar : Option (List K)} {v : List K}
    (hs : startPars S D g ob npar = (ob, .ok v)) :
    getCov S D dr g ob npar = match genSysYaml S D g ob.a (some v) with
      | (a, some e) => ({ ob with a := a }, .error e)
      | (a, none) => ({ ob with a := a }, match a.ppar with
        | some pp => .ok (.cov (S.cov pp))
        | none => .error .attributeError) := by
  unfold getCov getPar
  simp only [hs, List.idxOf?_eq_none_iff.2 hn, List.idxOf?_eq_none_iff.2 hf, if_true]
  rcases genSysYaml S D g ob.a (some v) with ⟨a, _ | e⟩ <;> rfl

theorem genSysYaml_fixed (a : Attrs K PP VV HX LS TT QQ) (v : List K) :
    (genSysYaml S D g a (some v)).1.par = some v ∧ (genSysYaml S D g a (some v)).1.filterQ = a.filterQ ∧
    ((genSysYaml S D g a (some v)).2 = none → ∃ pp, S.pcompile v = .ok pp ∧ (genSysYaml S D g a (some v)).1.ppar = some pp) := by
  unfold genSysYaml
  simp only
  cases S.pcompile v with
  | error e => exact ⟨rfl, rfl, fun h => by cases h⟩
  | ok pp =>
    simp only
    repeat' split
    all_goals first
      | exact ⟨rfl, rfl, fun _ => ⟨pp, rfl, rfl⟩⟩

/-- **C180 (what is returned, and what is written).** For every model with current parameters `cur` and every argument that fits, `get_cov` returns
the matrix of the `covariances` section for the parameters that are meant, provided the model can be solved for them, and raises otherwise. In both
cases these parameters become the current ones, and the filter keeps its covariance. -/
theorem C180_outcome (h : WF D) (hn : "cov_mat" ∉ D.names) (hf : "cov_mat" ∉ D.pfNames) {cur : List K} (hc : ob.a.par = some cur)
    (hl : cur.length = D.names.length) (npar : Option (List K))
    (hfit : ∀ w, npar = some w → w.length = D.names.length ∨ ∃ p, D.prior = some p ∧ w.length = p.names.length) :
    ∃ v, Spec.ParsMeant D cur npar v ∧ (getCov S D dr g ob npar).1.a.par = some v ∧
      (getCov S D dr g ob npar).1.a.filterQ = ob.a.filterQ ∧
      (∀ e, (genSysYaml S D g ob.a (some v)).2 = some e → (getCov S D dr g ob npar).2 = .error e) ∧
      ((genSysYaml S D g ob.a (some v)).2 = none → ∃ pp, S.pcompile v = .ok pp ∧ (getCov S D dr g ob npar).2 = .ok (.cov (S.cov pp))) := by
  obtain ⟨v, hv, hs⟩ := startPars_meant (S := S) (g := g) h hc hl npar hfit
  refine ⟨v, hv, ?_⟩
  rw [getCov_eq hn hf hs]
  obtain ⟨h1, h2, h3⟩ := genSysYaml_fixed (S := S) (D := D) (g := g) ob.a v
  rcases hg : genSysYaml S D g ob.a (some v) with ⟨a, e⟩
  rw [hg] at h1 h2 h3
  cases e with
  | some e => exact ⟨h1, h2, fun e' he => (by cases he; rfl), fun he => (by cases he)⟩
  | none =>
    obtain ⟨pp, h4, h5⟩ := h3 rfl
    simp only at h5
    refine ⟨h1, h2, fun e he => (by cases he), fun _ => ⟨pp, h4, ?_⟩⟩
    simp only [h5]

/-- **C180 (exact condition).** The current parameters are the same after `get_cov` if and only if the parameters that are meant are the current
ones. -/
theorem C180_iff (h : WF D) (hn : "cov_mat" ∉ D.names) (hf : "cov_mat" ∉ D.pfNames) {cur : List K} (hc : ob.a.par = some cur)
    (hl : cur.length = D.names.length) (npar : Option (List K))
    (hfit : ∀ w, npar = some w → w.length = D.names.length ∨ ∃ p, D.prior = some p ∧ w.length = p.names.length) :
    (getCov S D dr g ob npar).1.a.par = ob.a.par ↔ Spec.ParsMeant D cur npar cur := by
  obtain ⟨v, hv, hs⟩ := startPars_meant (S := S) (g := g) h hc hl npar hfit
  have h1 : (getCov S D dr g ob npar).1.a.par = some v := by
    rw [getCov_eq hn hf hs]
    have := (genSysYaml_fixed (S := S) (D := D) (g := g) ob.a v).1
    rcases hg : genSysYaml S D g ob.a (some v) with ⟨a, e⟩
    rw [hg] at this
    cases e <;> exact this
  rw [h1, hc, Option.some.injEq]
  constructor
  · rintro rfl
    exact hv
  · intro hm
    cases npar with
    | none => exact hv
    | some w =>
      rcases hv with ⟨_, rfl⟩ | ⟨a1, p, a2, a3, a4, a5, a6⟩
      · rcases hm with ⟨_, rfl⟩ | ⟨b1, _⟩
        · rfl
        · contradiction
      · rcases hm with ⟨b1, _⟩ | ⟨_, p', b2, b3, b4, b5, b6⟩
        · exact absurd b1 a1
        · obtain rfl : p = p' := by rw [a2] at b2; exact Option.some.inj b2
          apply List.ext_getElem? 
          intro i
          by_cases hi : i < D.names.length
          · have hs : D.names[i]? = some D.names[i] := List.getElem?_eq_getElem hi
            by_cases hm : D.names[i] ∈ p.names
            · obtain ⟨j, hj⟩ := List.getElem?_of_mem hm
              rw [a5 j i _ hj hs, b5 j i _ hj hs]
            · exact a6 i _ hs hm
          · rw [List.getElem?_eq_none (by omega), List.getElem?_eq_none (by omega)]

/-- **C180 (partial).** In a model whose attributes fit together, a successful `get_cov()` without an argument changes nothing at all, and the
covariance of the filter, if there is one, is the square of the matrix that is returned. Missing: `get_cov(npar)`, and that it is the covariance
itself (`C180_refuted`). -/
theorem C180_current_partial (hn : "cov_mat" ∉ D.names) (hf : "cov_mat" ∉ D.pfNames) (hs : Spec.InSync S D sq ob.a)
    {ob' : Obj K PP VV HX LS TT QQ} {r : ParVal K QQ} (hr : getCov S D dr ⟨none, none, false⟩ ob none = (ob', .ok r)) :
    ob' = ob ∧ ∃ q, r = .cov q ∧ ∀ Q, ob.a.filterQ = some Q → Q = sq q := by
  obtain ⟨v, pp, xb, lks, vv, hx, ls, t, s1, s2, s3, s4, s5, s6, s7, s8, s9, s10, s11, s12, s13, s14, s15, s16⟩ := hs
  have hst : startPars S D ⟨none, none, false⟩ ob none = (ob, .ok v) := by
    unfold startPars
    simp only [s1]
  rw [getCov_eq hn hf hst] at hr
  have hfr := genSysYaml_frame (S := S) (D := D) (g := ⟨none, none, false⟩) s8 ⟨rfl, rfl⟩ (some v)
  rcases hg : genSysYaml S D ⟨none, none, false⟩ ob.a (some v) with ⟨a, e⟩
  rw [hg] at hr
  cases e with
  | some e => cases hr
  | none =>
    obtain ⟨pp', xb', lks', vv', hx', ls', t', g1, g2, g3, g4, g5, g6, g7⟩ := genSysYaml_sync (S := S) (D := D) (g := ⟨none, none, false⟩) ob.a v rfl
      (by rw [hg])
    rw [hg] at g1 hfr
    simp only at g1
    have hl := hfr.lks
    rw [g1] at hl hr
    simp only at hl hr
    rw [s8, Option.some.injEq] at hl
    obtain rfl : pp = pp' := by rw [s3] at g2; exact Except.ok.inj g2
    obtain rfl : xb = xb' := by rw [s5] at g3; exact Except.ok.inj g3
    obtain ⟨rfl, rfl⟩ : vv = vv' ∧ hx = hx' := by
      rw [s9] at g5; exact Prod.mk.inj (Except.ok.inj g5)
    obtain rfl : ls = ls' := by rw [s12] at g6; exact Except.ok.inj g6
    rw [hl, s14] at g7
    obtain rfl : t = t' := Except.ok.inj g7
    rw [Prod.mk.injEq, Except.ok.injEq] at hr
    refine ⟨?_, _, hr.2.symm, s16⟩
    rw [← hr.1, ← s1, ← s4, ← s6, ← s10, hl, ← s8, ← s11, ← s13, ← s15]

end

/-- **C180 (the scale).** In every accepted model the matrix is diagonal (C41), with entries `sd`. It is the covariance that the filter works with if
and only if all entries are 0 or 1: the section `covariances` holds standard deviations, and `get_cov` returns them. -/
theorem C180_scale {n : Type} [Fintype n] [DecidableEq n] [Field K] [LinearOrder K] {S : Solver K PP VV HX LS TT (Matrix n n K)} {D : Decl K}
    {dr : Draws K} {ob ob' : Obj K PP VV HX LS TT (Matrix n n K)} (hn : "cov_mat" ∉ D.names) (hf : "cov_mat" ∉ D.pfNames)
    (hs : Spec.InSync S D (fun q => q * q) ob.a) {sd : n → K}
    (hr : getCov S D dr ⟨none, none, false⟩ ob none = (ob', .ok (.cov (Matrix.diagonal sd)))) {Q : Matrix n n K} (hQ : ob.a.filterQ = some Q) :
    Q = Matrix.diagonal (fun i => sd i * sd i) ∧ (Q = Matrix.diagonal sd ↔ ∀ i, sd i = 0 ∨ sd i = 1) := by
  obtain ⟨-, q, h1, h2⟩ := C180_current_partial hn hf hs hr
  cases h1
  have h3 := h2 Q hQ
  rw [Matrix.diagonal_mul_diagonal] at h3
  refine ⟨h3, ?_⟩
  rw [h3, Matrix.diagonal_injective.eq_iff, funext_iff]
  refine forall_congr' fun i => ?_
  constructor
  · intro e
    rcases eq_or_ne (sd i) 0 with h0 | h0
    · exact .inl h0
    · exact .inr (mul_left_cancel₀ h0 (by rw [e, mul_one]))
  · rintro (e | e) <;> rw [e] <;> simp

/-- **C180 (refuted).** A solved model with a filter (matrices of one shock are numbers here): `get_cov()` is 3/2, the filter has the covariance 9/4.
`get_cov(npar=[0, 1, 1])` returns the matrix for these parameters and leaves them as the current ones, so that the covariance of the filter no longer
belongs to the current parameters; and if the model cannot be solved for `npar`, they are the current ones as well, while the solution is the old one. -/
theorem C180_refuted :
    let ob : ParEx.O := { ParEx.solved with a := { ParEx.solved.a with filterQ := some (9/4) } }
    let cov := getCov ParEx.solver ParEx.decl ParEx.draws ⟨none, none, false⟩ ob
    Spec.InSync ParEx.solver ParEx.decl (fun q => q * q) ob.a ∧
    cov none = (ob, .ok (.cov (3/2))) ∧
    (cov (some [0, 1, 1])).2 = .ok (.cov 4) ∧ (cov (some [0, 1, 1])).1.a.par = some [0, 1, 1] ∧ (cov (some [0, 1, 1])).1.a.filterQ = some (9/4) ∧
    ¬ Spec.InSync ParEx.solver ParEx.decl (fun q => q * q) (cov (some [0, 1, 1])).1.a ∧
    (cov (some [2, 1, 1])).2 = .error .linAlg ∧ (cov (some [2, 1, 1])).1.a.par = some [2, 1, 1] ∧
    (cov (some [2, 1, 1])).1.a.tables = ob.a.tables := by
  intro ob cov
  have hS : Spec.InSync ParEx.solver ParEx.decl (fun q => q * q) ob.a := by
    refine ⟨[0, 1/2, 1/4], [0, 1/2, 1/4, 3/4], -1, (3, 17), "w", 3/2, 3/2, 3/2, ?_⟩
    refine ⟨?_, ?_, ?_, ?_, ?_, ?_, ?_, ?_, ?_, ?_, ?_, ?_, ?_, ?_, ?_, ?_⟩
    all_goals decide +kernel
  have h2 : (cov none).2 = .ok (.cov (3/2)) := by decide +kernel
  have h3 : (cov (some [0, 1, 1])).2 = .ok (.cov 4) := by decide +kernel
  have h4 : (cov (some [0, 1, 1])).1.a.par = some [0, 1, 1] := by decide +kernel
  have h5 : (cov (some [0, 1, 1])).1.a.filterQ = some (9/4) := by decide +kernel
  refine ⟨hS, ?_, h3, h4, h5, ?_, by decide +kernel, by decide +kernel, by decide +kernel⟩
  · have e : cov none = ((cov none).1, .ok (.cov (3/2))) := by rw [← h2]
    have := (C180_current_partial (by decide) (by decide) hS e).1
    rw [e, this]
  · rintro ⟨v, pp, xb, lks, vv, hx, ls, t, s1, -, s3, -, -, -, -, -, -, -, -, -, -, -, -, s16⟩
    rw [h4] at s1
    cases s1
    have e : pp = [0, 1, 1, 2] := by
      have : (Except.ok ([0, 1, 1] ++ [([0, 1, 1] : List Rat).sum]) : Except PyErr (List Rat)) = .ok pp := s3
      rw [← Except.ok.inj this]
      decide +kernel
    have := s16 _ h5
    rw [e] at this
    revert this
    decide +kernel

end Pydsge
