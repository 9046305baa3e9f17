import Verif.Model.Book
import Verif.Props.ModelFileEx

/-!
# C155: what a model says about its size
-/

set_option autoImplicit false
set_option linter.unusedSectionVars false
set_option linter.unusedSimpArgs false

namespace Pydsge

open Parser Pipeline Book

namespace Spec
variable {K : Type}

/-- `list(set(a).union(b))`: every member once, in some order. -/
def IsUnion (uni : List TSym → List TSym → List TSym) : Prop := ∀ a b, (uni a b).Nodup ∧ ∀ x, x ∈ uni a b ↔ x ∈ a ∨ x ∈ b

/-- The symbol occurs in one of the equations. -/
def OccursIn (s : TSym) (eqs : List (Eqn K)) : Prop := ∃ e ∈ eqs, s ∈ e.lhs.syms ∨ s ∈ e.rhs.syms

end Spec

namespace Book
variable {K : Type} {uni : List TSym → List TSym → List TSym}

theorem collect_spec (hu : Spec.IsUnion uni) (p : TSym → Bool) (eqs : List (Eqn K)) :
    (collect uni p eqs).Nodup ∧ ∀ s, s ∈ collect uni p eqs ↔ p s = true ∧ Spec.OccursIn s eqs := by
  have gen : ∀ (es : List (Eqn K)) (acc : List TSym), acc.Nodup →
      (es.foldl (fun acc e => uni acc (e.syms.filter p)) acc).Nodup ∧
      ∀ s, s ∈ es.foldl (fun acc e => uni acc (e.syms.filter p)) acc ↔ s ∈ acc ∨ (p s = true ∧ Spec.OccursIn s es) := by
    intro es
    induction es with
    | nil => intro acc h; exact ⟨h, fun s => by simp [Spec.OccursIn]⟩
    | cons e es ih =>
      intro acc h
      obtain ⟨h1, h2⟩ := hu acc (e.syms.filter p)
      obtain ⟨h3, h4⟩ := ih _ h1
      refine ⟨h3, fun s => ?_⟩
      rw [List.foldl_cons, h4, h2, List.mem_filter]
      simp only [Spec.OccursIn, List.mem_cons, exists_eq_or_imp, Eqn.syms, List.mem_append]
      generalize (∃ a ∈ es, s ∈ a.lhs.syms ∨ s ∈ a.rhs.syms) = Q
      clear ih h1 h2 h3 h4 hu h
      tauto
  obtain ⟨h1, h2⟩ := gen eqs [] List.nodup_nil
  exact ⟨h1, fun s => by rw [collect, h2]; simp⟩

theorem coef_occurs [Field K] {I : Interp K} {e : Eqn K} {s : TSym} (h : coef I e.setEqZero s ≠ 0) : s ∈ e.lhs.syms ∨ s ∈ e.rhs.syms := by
  unfold coef at h
  split at h
  · rename_i hs
    simpa [Eqn.setEqZero, Expr.syms] using hs
  · exact absurd rfl h

theorem parsed_length [Field K] {ord : List (TSym × TSym) → List (TSym × TSym)} {vars shocks : List String} {eqs : List (Eqn K)} {st : PState K}
    (h : parseEqs ord vars shocks eqs = .ok st) : st.eqs.length + 1 = st.vars.length := by
  obtain ⟨hlen, rfl⟩ := parseEqs_ok h
  have hv1 : (shockStage ord vars shocks eqs).vars = vars ++ (lagged (lagOf eqs) shocks).map varOf :=
    shockFold_vars ord _ shocks ⟨vars, eqs⟩
  have hl1 : (shockStage ord vars shocks eqs).eqs.length = eqs.length + (lagged (lagOf eqs) shocks).length :=
    shockFold_length ord _ shocks ⟨vars, eqs⟩
  rw [endoStage_eqs, endoStage_vars, List.length_map, List.length_append, List.length_append, hl1, endoNames_length (K := K)]
  have := congrArg List.length hv1
  simp only [List.length_append, List.length_map] at this
  omega

end Book

section
variable {K : Type} [Field K] {ord : List (TSym × TSym) → List (TSym × TSym)} {I : Interp K} {src : Source K} {C : Compiled K}
variable {uni : List TSym → List TSym → List TSym}

/-- **C155 (forward looking variables).** For every model that is accepted: `fvars` holds the leads `v(+1)` of model variables that occur in the equations,
each once; so `neta` is the number of variables whose expectation matters.  `lvars` holds the lags in the same way. -/
theorem C155_forward_variables (hu : Spec.IsUnion uni) (h : compile ord I src = .ok C) :
    (init uni C.st).fvars.Nodup ∧
    (∀ s, s ∈ (init uni C.st).fvars ↔ ∃ v ∈ C.mats.vars, s = vsym v 1 ∧ Spec.OccursIn s C.st.eqs) ∧
    (∃ l : List String, l.Nodup ∧ (∀ v, v ∈ l ↔ v ∈ C.mats.vars ∧ Spec.OccursIn (vsym v 1) C.st.eqs) ∧ neta (init uni C.st) = l.length) ∧
    (init uni C.st).lvars.Nodup ∧
    (∀ s, s ∈ (init uni C.st).lvars ↔ ∃ v ∈ C.mats.vars, s = vsym v (-1) ∧ Spec.OccursIn s C.st.eqs) := by
  obtain ⟨_, h1, h2, h3, h4⟩ := compile_ok h
  obtain ⟨f1, f2⟩ := collect_spec hu (fun s => 0 < s.date) C.st.eqs
  obtain ⟨l1, l2⟩ := collect_spec hu (fun s => s.date < 0) C.st.eqs
  have key : ∀ s, Spec.OccursIn s C.st.eqs →
      (∃ v ∈ C.mats.vars, s = vsym v 1 ∨ s = vsym v 0 ∨ s = vsym v (-1)) ∨ ∃ n ∈ src.shocks, s = ssym n := by
    rintro s ⟨e, he, hs⟩
    obtain ⟨i, hi⟩ := List.mem_iff_getElem?.1 he
    obtain ⟨g1, g2, _, _⟩ := getMatrices_ok I true _ _ _ _ h3 i e hi
    rcases g1 s (by simpa [Eqn.syms] using hs) with ⟨v, hv, h⟩ | h
    · exact Or.inl ⟨v, (g2 v).2 hv, h⟩
    · exact Or.inr h
  have hf : ∀ s, s ∈ (init uni C.st).fvars ↔ ∃ v ∈ C.mats.vars, s = vsym v 1 ∧ Spec.OccursIn s C.st.eqs := by
    intro s
    show s ∈ collect uni _ _ ↔ _
    rw [f2]
    constructor
    · rintro ⟨hd, ho⟩
      simp only [decide_eq_true_eq] at hd
      rcases key s ho with ⟨v, hv, rfl | rfl | rfl⟩ | ⟨n, _, rfl⟩
      · exact ⟨v, hv, rfl, ho⟩
      · simp [vsym, TSym.mk'] at hd
      · simp [vsym, TSym.mk'] at hd
      · simp [ssym, TSym.mk'] at hd
    · rintro ⟨v, _, rfl, ho⟩
      exact ⟨by simp [vsym, TSym.mk'], ho⟩
  refine ⟨f1, hf, ⟨(init uni C.st).fvars.map TSym.name, ?_, fun v => ?_, by simp [neta]⟩, l1, fun s => ?_⟩
  · refine List.Nodup.map_on ?_ f1
    intro a ha b hb hab
    obtain ⟨v, _, rfl, _⟩ := (hf a).1 ha
    obtain ⟨w, _, rfl, _⟩ := (hf b).1 hb
    simp only [vsym, TSym.mk'] at hab
    rw [hab]
  · rw [List.mem_map]
    constructor
    · rintro ⟨s, hs, rfl⟩
      obtain ⟨v, hv, rfl, ho⟩ := (hf s).1 hs
      exact ⟨hv, ho⟩
    · rintro ⟨hv, ho⟩
      exact ⟨vsym v 1, (hf _).2 ⟨v, hv, rfl, ho⟩, rfl⟩
  · show s ∈ collect uni _ _ ↔ _
    rw [l2]
    constructor
    · rintro ⟨hd, ho⟩
      simp only [decide_eq_true_eq] at hd
      rcases key s ho with ⟨v, hv, rfl | rfl | rfl⟩ | ⟨n, _, rfl⟩
      · simp [vsym, TSym.mk'] at hd
      · simp [vsym, TSym.mk'] at hd
      · exact ⟨v, hv, rfl, ho⟩
      · simp [ssym, TSym.mk'] at hd
    · rintro ⟨v, _, rfl, ho⟩
      exact ⟨by simp [vsym, TSym.mk'], ho⟩

/-- **C155 (sizes, partial).** There is one equation less than there are variables (the constraint is the missing one), `nstate` counts the variables and the
expected variables, and `neq_fort` is one less.

Missing: `neq_fort` is not what the documentation says (`C155_neq_fort_refuted`). -/
theorem C155_sizes_partial (h : compile ord I src = .ok C) :
    neq C.st + 1 = C.st.vars.length ∧ (init uni C.st).nstate = C.st.vars.length + neta (init uni C.st) ∧
      neqFort C.st (init uni C.st) + 1 = (init uni C.st).nstate ∧ (C.st.vars.Nodup → neq C.st + 1 = C.mats.vars.length) := by
  obtain ⟨_, h1, h2, h3, h4⟩ := compile_ok h
  have hl := parsed_length h1
  refine ⟨hl, rfl, ?_, fun hn => ?_⟩
  · simp only [neqFort, neq, neta, init]
    omega
  · have hv : C.mats.vars = unique C.st.vars := by
      unfold getMatrices at h3
      simp only at h3
      split at h3
      · cases h3
      · simp only [Except.ok.injEq] at h3
        rw [← h3]
    rw [hv, unique_length, List.dedup_eq_self.2 hn]
    exact hl

/-- **C155 (expectations enter where `fvars` says).** The coefficients of the expectation of a variable that is not in `fvars`, and those of the lag of a variable that is not in
`lvars`, are zero in every equation. -/
theorem C155_other_columns_zero (hu : Spec.IsUnion uni) (h : compile ord I src = .ok C) (i : Nat) (hi : i < C.st.eqs.length) (v : String) :
    (vsym v 1 ∉ (init uni C.st).fvars → C.mats.AA i v = 0) ∧ (vsym v (-1) ∉ (init uni C.st).lvars → C.mats.CC i v = 0) := by
  obtain ⟨_, h1, h2, h3, h4⟩ := compile_ok h
  have he : C.st.eqs[i]? = some C.st.eqs[i] := List.getElem?_eq_getElem hi
  obtain ⟨_, _, _, g⟩ := getMatrices_ok I true _ _ _ _ h3 i _ he
  constructor
  · intro hn
    rw [(g v).1]
    by_contra hc
    exact hn (((collect_spec hu _ _).2 _).2 ⟨by simp [vsym, TSym.mk'], _, List.getElem_mem hi, coef_occurs hc⟩)
  · intro hn
    rw [(g v).2.2.1]
    by_contra hc
    exact hn (((collect_spec hu _ _).2 _).2 ⟨by simp [vsym, TSym.mk'], _, List.getElem_mem hi, coef_occurs hc⟩)

/-- **C155 (expectation errors).** There is one error and one equation per expected variable: the `i`-th equation holds iff the error `eta_v` is the difference between the variable and what was
expected of it (the parameter `__LAGGED_v`). -/
theorem C155_expectation_errors (hu : Spec.IsUnion uni) (h : compile ord I src = .ok C) :
    let B := init uni C.st
    B.reErrors.length = neta B ∧ B.fvarsLagged.length = neta B ∧ B.reErrorsEq.length = neta B ∧
    ∀ (i : Nat) (v : String), B.fvars[i]? = some (vsym v 1) → ∃ e, B.reErrorsEq[i]? = some e ∧ B.reErrors[i]? = some (ssym ("eta_" ++ v)) ∧
      ∀ (J : Interp K) (ρ : TSym → K),
        e.lhs.eval J ρ = e.rhs.eval J ρ ↔ ρ (ssym ("eta_" ++ v)) = ρ (vsym v) - J.par ("__LAGGED_" ++ v) := by
  intro B
  refine ⟨by simp [B, init, neta], by simp [B, init, neta], by simp [B, init, neta], fun i v hv => ?_⟩
  have hv' : (collect uni (fun s => 0 < s.date) C.st.eqs)[i]? = some (vsym v 1) := hv
  refine ⟨⟨.sub (.sub (.sym ((vsym v 1).call (-1))) (.par (laggedName (vsym v 1)))) (.sym (etaSym (vsym v 1))), .num 0⟩, ?_, ?_, fun J ρ => ?_⟩
  · simp [B, init, List.getElem?_map, hv']
  · simp [B, init, List.getElem?_map, hv', etaSym, vsym, ssym, TSym.mk']
  · have hc : (vsym v 1).call (-1) = vsym v := by simp [TSym.call, vsym, TSym.mk']
    rw [hc]
    simp only [Expr.eval, laggedName, etaSym, vsym, ssym, TSym.mk']
    rw [sub_eq_zero, eq_comm]

/-- **C155** refuted for `neq_fort` (documented as the number of model equations plus that of measurement equations): it is that only if there are as many observables as
expected variables, and there are accepted models with one expected variable and no observable. -/
theorem C155_neq_fort_refuted :
    (∀ (st : PState K) (s : Source K), neqFort st (init uni st) = neq st + nobs s ↔ neta (init uni st) = nobs s) ∧
    ∃ (s : Source Rat) (D : Compiled Rat), compile id FileEx.I s = .ok D ∧ ∀ u, Spec.IsUnion u → neqFort D.st (init u D.st) ≠ neq D.st + nobs s := by
  refine ⟨fun st s => by simp [neqFort], ⟨["y", "r"], ["e"], [FileEx.eq1], "r", .sym (vsym "y"), []⟩, ?_⟩
  cases hC : compile id FileEx.I ⟨["y", "r"], ["e"], [FileEx.eq1], "r", .sym (vsym "y"), []⟩ with
  | error e =>
    have : (compile id FileEx.I (⟨["y", "r"], ["e"], [FileEx.eq1], "r", .sym (vsym "y"), []⟩ : Source Rat)).toOption.isSome = true := by decide +kernel
    rw [hC] at this
    cases this
  | ok D =>
    refine ⟨D, rfl, fun u hu => ?_⟩
    obtain ⟨_, h1, _⟩ := compile_ok hC
    have hst : D.st = ⟨["y", "r"], [FileEx.eq1]⟩ := by
      have := FileEx.parsed
      simp only [FileEx.src] at this
      rw [this] at h1
      exact (Except.ok.inj h1).symm
    have hm : vsym "r" 1 ∈ (init u D.st).fvars := by
      refine ((collect_spec hu _ _).2 _).2 ⟨by decide, FileEx.eq1, by rw [hst]; simp, ?_⟩
      decide +kernel
    have hp : 0 < neta (init u D.st) := List.length_pos_of_mem hm
    simp only [neqFort, nobs, List.length_nil]
    omega

/-- The hypotheses are met: for the file of `FileEx`, with `uni` as a concatenation without duplicates, `fvars` is `[r(+1)]`. -/
theorem C155_hypotheses_met :
    (compile id FileEx.I FileEx.src).toOption.isSome = true ∧ Spec.IsUnion (fun a b => (a ++ b).dedup) ∧
      (init (fun a b => (a ++ b).dedup) (⟨["y", "r"], [FileEx.eq1]⟩ : PState Rat)).fvars = [vsym "r" 1] :=
  ⟨FileEx.accepted, fun a b => ⟨List.nodup_dedup _, fun x => by simp⟩, by decide +kernel⟩

end
end Pydsge
