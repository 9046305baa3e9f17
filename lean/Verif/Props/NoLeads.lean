import Verif.Props.Accept
import Verif.Lemmas.Pipeline

/-!
# C195: a system without leads is parsed into a system without leads

parser.py:847 and 863 take the absolute value of the largest and smallest date of a variable, so a variable that only occurs with lags of two or more
periods also gets variables for leads. The constraint is not among the equations that are looked at (parser.py:825): it is enough that the constrained
variable occurs elsewhere with long lags only.
-/

set_option autoImplicit false
set_option linter.unusedSectionVars false
set_option linter.unusedSimpArgs false

namespace Pydsge
open Parser

variable {K : Type} [Field K]
variable {ord : List (TSym × TSym) → List (TSym × TSym)} {vars shocks : List String} {eqs : List (Eqn K)} {st : PState K}

/-- The variable occurs with a date of at least -1. -/
def Spec.OccursRecently (eqs : List (Eqn K)) (v : String) : Prop :=
  ∃ e ∈ eqs, ∃ s ∈ e.syms, s.kind = .variable ∧ s.name = v ∧ -1 ≤ s.date

/-- The definitions of the added variables are among the parsed equations. -/
theorem endoEqs_parsed (ho : IsOrder ord) (s1 : PState K) (e : Eqn K) (he : e ∈ endoEqs (K := K) s1.vars (nOf s1) (kOf s1)) :
    e ∈ (endoStage ord s1).eqs := by
  rw [endoStage_eqs, List.map_append, endoEqs_subs ord ho]
  exact List.mem_append_right _ he

/-- **C195** (where it holds): without leads in the equations, and if every variable occurs with a date of at least -1, there are no leads after parsing. -/
theorem C195_no_leads_partial (ho : IsOrder ord) (h : parseEqs ord vars shocks eqs = .ok st) (h0 : LeadsAtMost 0 eqs)
    (hocc : ∀ v ∈ vars, Spec.OccursRecently eqs v) : LeadsAtMost 0 st.eqs := by
  obtain ⟨_, rfl⟩ := parseEqs_ok h
  have hv1 : (shockStage ord vars shocks eqs).vars = vars ++ (lagged (lagOf eqs) shocks).map varOf := shockFold_vars ord _ shocks ⟨vars, eqs⟩
  have hs0 : LeadsAtMost 0 (shockStage ord vars shocks eqs).eqs := shockStage_leads ho 0 le_rfl h0
  have hk : ∀ v ∈ (shockStage ord vars shocks eqs).vars, kOf (shockStage ord vars shocks eqs) v ≤ 1 := by
    intro v hv
    obtain ⟨d, hd, hd1⟩ : ∃ d ∈ dates .variable v (shockStage ord vars shocks eqs).eqs, -1 ≤ d := by
      rw [hv1] at hv
      rcases List.mem_append.1 hv with hv | hv
      · obtain ⟨e, he, s, hs, hsk, hn, hd⟩ := hocc v hv
        obtain ⟨e', he', hs'⟩ := shockFold_keeps ho (lagOf eqs) shocks ⟨vars, eqs⟩ e he s hs hsk
        exact ⟨s.date, mem_dates_iff.2 ⟨e', he', s, hs', hsk, hn, rfl⟩, hd⟩
      · obtain ⟨n, hn, rfl⟩ := List.mem_map.1 hv
        obtain ⟨e, he, h⟩ := shockFold_own (K := K) ho (lagOf eqs) shocks ⟨vars, eqs⟩ n hn
        exact ⟨0, mem_dates_iff.2 ⟨e, he, _, h, rfl, rfl, rfl⟩, by omega⟩
    have hle := le_maxDate _ _ hd
    obtain ⟨e, he, s, hs, hsk, _, hm⟩ := mem_dates_iff.1 (maxDate_mem _ (List.ne_nil_of_mem hd))
    have := hs0 e he s hs hsk
    show (maxDate (dates .variable v (shockStage ord vars shocks eqs).eqs)).natAbs ≤ 1
    omega
  intro e he s hs hsk
  rw [endoStage_eqs, List.map_append, endoEqs_subs ord ho] at he
  rcases List.mem_append.1 he with he | he
  · obtain ⟨e0, he0, rfl⟩ := List.mem_map.1 he
    have hsep : ∀ kv ∈ ord (endoDict (shockStage ord vars shocks eqs).vars (nOf (shockStage ord vars shocks eqs)) (kOf (shockStage ord vars shocks eqs))),
        ∀ kv' ∈ ord (endoDict (shockStage ord vars shocks eqs).vars (nOf (shockStage ord vars shocks eqs)) (kOf (shockStage ord vars shocks eqs))),
        kv.2 ≠ kv'.1 := by
      intro kv hk kv' hk'
      exact endoDict_sep _ _ _ _ ((ho _).mem_iff.1 hk) _ ((ho _).mem_iff.1 hk')
    rcases Eqn.syms_subs _ _ hsep s hs with ⟨kv, hkv, rfl⟩ | ⟨hs', _⟩
    · rw [(ho _).mem_iff, mem_endoDict] at hkv
      obtain ⟨v, hv, ⟨j, _, rfl⟩ | ⟨j, hj, rfl⟩⟩ := hkv
      · simp [vsym, TSym.mk']
      · have := hk v hv; omega
    · exact hs0 e0 he0 s hs' hsk
  · simp only [endoEqs, lagEqs, leadEqs, List.mem_flatMap, List.mem_append, List.mem_map, List.mem_range] at he
    obtain ⟨v, hv, ⟨j, _, rfl⟩ | ⟨j, hj, rfl⟩⟩ := he
    · simp only [Eqn.syms, Expr.syms, List.mem_append, List.mem_singleton] at hs
      rcases hs with rfl | rfl
      · simp [vsym, TSym.mk']
      · simp only [lagRhs]; split <;> simp [vsym, TSym.mk']
    · have := hk v hv; omega

/-- **C195**, exactly: there are no leads after parsing iff there are none before, and every variable occurs with a date of at least -1. -/
theorem C195_iff (ho : IsOrder ord) (h : parseEqs ord vars shocks eqs = .ok st) (hdecl : DeclaredVars vars eqs)
    (hc : ∀ s ∈ shocks, varOf s ∉ vars) :
    LeadsAtMost 0 st.eqs ↔ LeadsAtMost 0 eqs ∧ ∀ v ∈ vars, Spec.OccursRecently eqs v := by
  refine ⟨fun H => ?_, fun H => C195_no_leads_partial ho h H.1 H.2⟩
  obtain ⟨_, hS, hV1, rfl⟩ := parseEqs_iff.1 h
  have hv1 : (shockStage ord vars shocks eqs).vars = vars ++ (lagged (lagOf eqs) shocks).map varOf := shockFold_vars ord _ shocks ⟨vars, eqs⟩
  have hin : ∀ v ∈ vars, v ∈ (shockStage ord vars shocks eqs).vars := fun v hv => by rw [hv1]; exact List.mem_append_left _ hv
  have hk : ∀ v ∈ vars, kOf (shockStage ord vars shocks eqs) v ≤ 1 := by
    intro v hv
    by_contra hk
    have := H ⟨.sym (vsym (leadVar v (0 + 1))), .sym (vsym v 1)⟩ (endoEqs_parsed ho _ _
      (List.mem_flatMap.2 ⟨v, hin v hv, List.mem_append_right _ (List.mem_map.2 ⟨0, List.mem_range.2 (by omega), rfl⟩)⟩))
      (vsym v 1) (by simp [Eqn.syms, Expr.syms]) rfl
    simp [vsym, TSym.mk'] at this
  refine ⟨fun e he s hs hsk => ?_, fun v hv => ?_⟩
  · by_contra hd
    obtain ⟨e', he', hs'⟩ := shockFold_keeps ho (lagOf eqs) shocks ⟨vars, eqs⟩ e he s hs hsk
    have hle := le_maxDate _ _ (mem_dates_iff.2 ⟨e', he', s, hs', hsk, rfl, rfl⟩)
    have h1 : (maxDate (dates .variable s.name (shockStage ord vars shocks eqs).eqs)).natAbs ≤ 1 := hk _ (hdecl e he s hs hsk)
    have hle' : s.date ≤ maxDate (dates .variable s.name (shockStage ord vars shocks eqs).eqs) := hle
    have hm := Eqn.mem_subs (ord (endoDict (shockStage ord vars shocks eqs).vars (nOf (shockStage ord vars shocks eqs))
        (kOf (shockStage ord vars shocks eqs)))) e' s hs' (by
      intro kv hkv heq
      rw [(ho _).mem_iff, mem_endoDict] at hkv
      obtain ⟨v, _, ⟨j, _, rfl⟩ | ⟨j, _, rfl⟩⟩ := hkv <;> (rw [heq] at hd hle' h1; simp only [vsym, TSym.mk'] at hd hle' h1; omega))
    refine hd (H _ ?_ s hm hsk)
    rw [endoStage_eqs]
    exact List.mem_map_of_mem (List.mem_append_left _ he')
  · by_contra hno
    have hne := hV1 v (hin v hv)
    have h2 : 2 ≤ (maxDate (dates .variable v (shockStage ord vars shocks eqs).eqs)).natAbs := by
      refine (maxDate_abs _ hne 2 (by omega)).2 (.inr fun d hd => ?_)
      have hd' := (shockStage_dates ho (fun n hn hv' => hc n (List.mem_filter.1 hn).1 (hv' ▸ hv)) d).1 hd
      obtain ⟨e, he, s, hs, hsk, hn, rfl⟩ := mem_dates_iff.1 hd'
      by_contra hlt
      exact hno ⟨e, he, s, hs, hsk, hn, by push_cast at hlt; omega⟩
    have h1 : (maxDate (dates .variable v (shockStage ord vars shocks eqs).eqs)).natAbs ≤ 1 := hk v hv
    omega

namespace ParseEx

/-- `y = y(-1) - r(-2) + e`, with `r` in the constraint. -/
def eqsBack : List (Eqn Rat) := [⟨.sym (vsym "y"), .add (.sub (.sym (vsym "y" (-1))) (.sym (vsym "r" (-2)))) (.sym (ssym "e"))⟩]

/-- `y = y(-1) - r(-2) + r + e`. -/
def eqsBoth : List (Eqn Rat) :=
  [⟨.sym (vsym "y"), .add (.add (.sub (.sym (vsym "y" (-1))) (.sym (vsym "r" (-2)))) (.sym (vsym "r"))) (.sym (ssym "e"))⟩]

def parsedBack : PState Rat := ⟨["y", "r", "r_LAG1", "r_LEAD1"],
  [⟨.sym (vsym "y"), .add (.sub (.sym (vsym "y" (-1))) (.sym (vsym "r_LAG1" (-1)))) (.sym (ssym "e"))⟩,
    ⟨.sym (vsym "r_LAG1"), .sym (vsym "r" (-1))⟩, ⟨.sym (vsym "r_LEAD1"), .sym (vsym "r" 1)⟩]⟩

end ParseEx

/-- **C195 (refuted)**: `y = y(-1) - r(-2) + e` has no leads; it is parsed, the matrices exist, and there is `r_LEAD1 = r(+1)` among the equations with its
entry in the matrix of the leads. -/
theorem C195_no_leads_refuted : parseEqs id ["y", "r"] ["e"] ParseEx.eqsBack = .ok ParseEx.parsedBack ∧ LeadsAtMost 0 ParseEx.eqsBack ∧
    DeclaredVars ["y", "r"] ParseEx.eqsBack ∧ ¬ LeadsAtMost 0 ParseEx.parsedBack.eqs ∧
    ∃ M, getMatrices ⟨fun _ => 0, fun _ _ _ => 0⟩ true ParseEx.parsedBack.vars ["e"] ParseEx.parsedBack.eqs = .ok M ∧ M.AA 2 "r" ≠ 0 := by
  have hp : parseEqs id ["y", "r"] ["e"] ParseEx.eqsBack = .ok ParseEx.parsedBack := by decide +kernel
  obtain ⟨M, hM⟩ := C36_accepted ⟨fun _ => 0, fun _ _ _ => 0⟩ (ord := id) (fun d => List.Perm.refl d) hp
    (by unfold WellFormed; decide +kernel) (by decide +kernel) (by decide +kernel)
  refine ⟨hp, by unfold LeadsAtMost; decide +kernel, by unfold DeclaredVars; decide +kernel, by unfold LeadsAtMost; decide +kernel, M, hM, ?_⟩
  have hrow := getMatrices_ok _ true _ _ _ _ hM 2 ⟨.sym (vsym "r_LEAD1"), .sym (vsym "r" 1)⟩ rfl
  rw [(hrow.2.2.2 _).1]
  decide +kernel

/-- With `r` itself in the equation there are no leads; the hypotheses of `C195_iff` are met in both cases. -/
theorem C195_hypotheses_met : ∃ st : PState Rat, parseEqs id ["y", "r"] ["e"] ParseEx.eqsBoth = .ok st ∧ LeadsAtMost 0 st.eqs ∧
    (∀ v ∈ ["y", "r"], Spec.OccursRecently ParseEx.eqsBoth v) ∧ ¬ Spec.OccursRecently ParseEx.eqsBack "r" ∧ ∀ s ∈ ["e"], varOf s ∉ ["y", "r"] := by
  have hocc : ∀ v ∈ ["y", "r"], Spec.OccursRecently ParseEx.eqsBoth v := by unfold Spec.OccursRecently; decide +kernel
  have h0 : LeadsAtMost 0 ParseEx.eqsBoth := by unfold LeadsAtMost; decide +kernel
  cases hp : parseEqs id ["y", "r"] ["e"] ParseEx.eqsBoth with
  | error e =>
    have : (parseEqs id ["y", "r"] ["e"] ParseEx.eqsBoth).toOption.isSome = true := by decide +kernel
    rw [hp] at this; cases this
  | ok st =>
    exact ⟨st, rfl, C195_no_leads_partial (fun d => List.Perm.refl d) hp h0 hocc, hocc, by unfold Spec.OccursRecently; decide +kernel,
      by decide +kernel⟩

end Pydsge
