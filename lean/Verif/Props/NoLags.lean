import Verif.Props.NoLeads

/-!
# C195, the other direction: lags from leads

parser.py:847 takes the absolute value of the smallest date: a variable that only occurs with leads of two or more periods gets variables for lags, which
become states of the model.
-/

set_option autoImplicit false
set_option linter.unusedSectionVars false
set_option linter.unusedSimpArgs false

namespace Pydsge
open Parser

variable {K : Type} [Field K]
variable {ord : List (TSym × TSym) → List (TSym × TSym)} {vars shocks : List String} {eqs : List (Eqn K)} {st : PState K}

/-- No variable occurs with a lag. -/
def Spec.NoLags (eqs : List (Eqn K)) : Prop := ∀ e ∈ eqs, ∀ s ∈ e.syms, s.kind = .variable → 0 ≤ s.date

/-- Shocks occur in the current period only. -/
def Spec.CurrentShocks (eqs : List (Eqn K)) : Prop := ∀ e ∈ eqs, ∀ s ∈ e.syms, s.kind = .shock → s.date = 0

/-- The variable occurs with a date of at most 1. -/
def Spec.OccursSoon (eqs : List (Eqn K)) (v : String) : Prop :=
  ∃ e ∈ eqs, ∃ s ∈ e.syms, s.kind = .variable ∧ s.name = v ∧ s.date ≤ 1

/-- Without lagged shocks the first stage does nothing. -/
theorem shockStage_id (hs : Spec.CurrentShocks eqs) : shockStage ord vars shocks eqs = ⟨vars, eqs⟩ := by
  have h0 : ∀ s, (minDate (dates .shock s eqs)).natAbs = 0 := by
    intro s
    by_cases hne : dates .shock s eqs = []
    · rw [hne]; rfl
    · obtain ⟨e, he, t, ht, hk, _, hd⟩ := mem_dates_iff.1 (minDate_mem _ hne)
      rw [← hd, hs e he t ht hk]; rfl
  unfold shockStage
  generalize hst : (⟨vars, eqs⟩ : PState K) = s0
  clear hst
  induction shocks generalizing s0 with
  | nil => rfl
  | cons s ss ih =>
    rw [List.foldl_cons]
    have : shockStep ord (fun s => minDate (dates .shock s eqs)) s0 s = s0 := by
      unfold shockStep
      rw [if_neg (by rw [h0 s]; omega)]
    rw [this]
    exact ih s0

/-- **C195**, lags: with current shocks only, there are no lags after parsing iff there are none before, and every variable occurs with a date of
at most 1. -/
theorem C195_lags_iff (ho : IsOrder ord) (h : parseEqs ord vars shocks eqs = .ok st) (hdecl : DeclaredVars vars eqs)
    (hs : Spec.CurrentShocks eqs) :
    Spec.NoLags st.eqs ↔ Spec.NoLags eqs ∧ ∀ v ∈ vars, Spec.OccursSoon eqs v := by
  obtain ⟨_, _, hV, rfl⟩ := parseEqs_iff.1 h
  rw [shockStage_id hs] at hV ⊢
  replace hV : ∀ v ∈ vars, dates .variable v eqs ≠ [] := hV
  have hsep : ∀ kv ∈ ord (endoDict vars (nOf ⟨vars, eqs⟩) (kOf (K := K) ⟨vars, eqs⟩)),
      ∀ kv' ∈ ord (endoDict vars (nOf ⟨vars, eqs⟩) (kOf (K := K) ⟨vars, eqs⟩)), kv.2 ≠ kv'.1 := by
    intro kv hk kv' hk'
    exact endoDict_sep _ _ _ _ ((ho _).mem_iff.1 hk) _ ((ho _).mem_iff.1 hk')
  constructor
  · intro H
    have hn : ∀ v ∈ vars, (minDate (dates .variable v eqs)).natAbs ≤ 1 := by
      intro v hv
      by_contra hn
      have := H ⟨.sym (vsym (lagVar v (0 + 1))), .sym (lagRhs v (0 + 1))⟩ (endoEqs_parsed ho ⟨vars, eqs⟩ _
        (List.mem_flatMap.2 ⟨v, hv, List.mem_append_left _ (List.mem_map.2 ⟨0, List.mem_range.2
          (show 0 < (minDate (dates .variable v eqs)).natAbs - 1 by omega), rfl⟩)⟩))
        (vsym v (-1)) (by simp [Eqn.syms, Expr.syms, lagRhs]) rfl
      simp [vsym, TSym.mk'] at this
    refine ⟨fun e he s hs' hsk => ?_, fun v hv => ?_⟩
    · by_contra hd
      have hle : minDate (dates .variable s.name eqs) ≤ s.date := minDate_le _ _ (mem_dates_iff.2 ⟨e, he, s, hs', hsk, rfl, rfl⟩)
      have h1 := hn _ (hdecl e he s hs' hsk)
      have hm := Eqn.mem_subs (ord (endoDict vars (nOf ⟨vars, eqs⟩) (kOf (K := K) ⟨vars, eqs⟩))) e s hs' (by
        intro kv hkv heq
        rw [(ho _).mem_iff, mem_endoDict] at hkv
        obtain ⟨v, _, ⟨j, _, rfl⟩ | ⟨j, _, rfl⟩⟩ := hkv <;> (rw [heq] at hd hle h1; simp only [vsym, TSym.mk'] at hd hle h1; omega))
      refine hd (H _ ?_ s hm hsk)
      rw [endoStage_eqs]
      exact List.mem_map_of_mem (List.mem_append_left _ he)
    · by_contra hno
      have h2 : 2 ≤ (minDate (dates .variable v eqs)).natAbs := by
        refine (minDate_abs _ (hV v hv) 2 (by omega)).2 (.inr fun d hd => ?_)
        obtain ⟨e, he, s, hs', hsk, hn', rfl⟩ := mem_dates_iff.1 hd
        by_contra hlt
        exact hno ⟨e, he, s, hs', hsk, hn', by push_cast at hlt; omega⟩
      have := hn v hv
      omega
  · rintro ⟨h0, hocc⟩
    have hn : ∀ v ∈ vars, nOf (⟨vars, eqs⟩ : PState K) v ≤ 1 := by
      intro v hv
      obtain ⟨e, he, s, hs', hsk, hn', hd⟩ := hocc v hv
      have hle : minDate (dates .variable v eqs) ≤ s.date := minDate_le _ _ (mem_dates_iff.2 ⟨e, he, s, hs', hsk, hn', rfl⟩)
      obtain ⟨e1, he1, s1, hs1, hk1, _, hm⟩ := mem_dates_iff.1 (minDate_mem _ (hV v hv))
      have := h0 e1 he1 s1 hs1 hk1
      show (minDate (dates .variable v eqs)).natAbs ≤ 1
      omega
    intro e he s hs' hsk
    rw [endoStage_eqs, List.map_append, endoEqs_subs ord ho] at he
    rcases List.mem_append.1 he with he | he
    · obtain ⟨e0, he0, rfl⟩ := List.mem_map.1 he
      rcases Eqn.syms_subs _ _ hsep s hs' with ⟨kv, hkv, rfl⟩ | ⟨hs'', _⟩
      · rw [(ho _).mem_iff, mem_endoDict] at hkv
        obtain ⟨v, hv, ⟨j, hj, rfl⟩ | ⟨j, _, rfl⟩⟩ := hkv
        · have := hn v hv; omega
        · simp [vsym, TSym.mk']
      · exact h0 e0 he0 s hs'' hsk
    · simp only [endoEqs, lagEqs, leadEqs, List.mem_flatMap, List.mem_append, List.mem_map, List.mem_range] at he
      obtain ⟨v, hv, ⟨j, hj, rfl⟩ | ⟨j, _, rfl⟩⟩ := he
      · have := hn v hv; omega
      · simp only [Eqn.syms, Expr.syms, List.mem_append, List.mem_singleton] at hs'
        rcases hs' with rfl | rfl <;> simp [vsym, TSym.mk']

namespace ParseEx

/-- `y = y(1) - r(2) + e`, with `r` in the constraint. -/
def eqsAhead : List (Eqn Rat) := [⟨.sym (vsym "y"), .add (.sub (.sym (vsym "y" 1)) (.sym (vsym "r" 2))) (.sym (ssym "e"))⟩]

def parsedAhead : PState Rat := ⟨["y", "r", "r_LAG1", "r_LEAD1"],
  [⟨.sym (vsym "y"), .add (.sub (.sym (vsym "y" 1)) (.sym (vsym "r_LEAD1" 1))) (.sym (ssym "e"))⟩,
    ⟨.sym (vsym "r_LAG1"), .sym (vsym "r" (-1))⟩, ⟨.sym (vsym "r_LEAD1"), .sym (vsym "r" 1)⟩]⟩

end ParseEx

/-- **C195 (refuted)**, lags: `y = y(1) - r(2) + e` has no lags; the parsed system contains `r_LAG1 = r(-1)`, and the matrix of the lags has its entry.
The hypotheses of `C195_lags_iff` are met. -/
theorem C195_lags_refuted : parseEqs id ["y", "r"] ["e"] ParseEx.eqsAhead = .ok ParseEx.parsedAhead ∧ Spec.NoLags ParseEx.eqsAhead ∧
    Spec.CurrentShocks ParseEx.eqsAhead ∧ DeclaredVars ["y", "r"] ParseEx.eqsAhead ∧ ¬ Spec.NoLags ParseEx.parsedAhead.eqs ∧
    ∃ M, getMatrices ⟨fun _ => 0, fun _ _ _ => 0⟩ true ParseEx.parsedAhead.vars ["e"] ParseEx.parsedAhead.eqs = .ok M ∧ M.CC 1 "r" ≠ 0 := by
  have hp : parseEqs id ["y", "r"] ["e"] ParseEx.eqsAhead = .ok ParseEx.parsedAhead := by decide +kernel
  obtain ⟨M, hM⟩ := C36_accepted ⟨fun _ => 0, fun _ _ _ => 0⟩ (ord := id) (fun d => List.Perm.refl d) hp
    (by unfold WellFormed; decide +kernel) (by decide +kernel) (by decide +kernel)
  refine ⟨hp, by unfold Spec.NoLags; decide +kernel, by unfold Spec.CurrentShocks; decide +kernel, by unfold DeclaredVars; decide +kernel,
    by unfold Spec.NoLags; decide +kernel, M, hM, ?_⟩
  have hrow := getMatrices_ok _ true _ _ _ _ hM 1 ⟨.sym (vsym "r_LAG1"), .sym (vsym "r" (-1))⟩ rfl
  rw [(hrow.2.2.2 _).2.2.1]
  decide +kernel

end Pydsge
