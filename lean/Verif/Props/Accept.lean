import Verif.Lemmas.Accept
import Verif.Props.Resolve

/-!
# C176: exactly which model files are accepted
-/

set_option autoImplicit false
set_option linter.unusedSectionVars false
set_option linter.unusedSimpArgs false

namespace Pydsge
open Matrix Parser Spec GenSys Engine Tools Pipeline Resolve

namespace Spec
variable {K : Type}

/-- The names that the parser adds: one for every shock with a lag, for every lag and every lead beyond the first. `AtV v d` and `AtS s d`
say that the equations contain `v(d)` or `s(d)`. Depths are absolute values: a variable that only occurs two or more periods ahead counts as
lagged, and one that only occurs two or more periods ago as leading. -/
inductive Added (vars shocks : List String) (AtV AtS : String → Int → Prop) : String → Prop
  | shock (s : String) (d : Int) : s ∈ shocks → AtS s d → d < 0 → Added vars shocks AtV AtS (s ++ "_VAR")
  | shockLag (s : String) (d : Int) (j : Nat) : s ∈ shocks → AtS s d → 1 ≤ j → d ≤ -((j : Int) + 1) →
      Added vars shocks AtV AtS (s ++ "_VAR" ++ "_LAG" ++ toString j)
  | lag (v : String) (j : Nat) : v ∈ vars → 1 ≤ j → ((∃ d, AtV v d ∧ d ≤ -((j : Int) + 1)) ∨ ∀ d, AtV v d → (j : Int) + 1 ≤ d) →
      Added vars shocks AtV AtS (v ++ "_LAG" ++ toString j)
  | lead (v : String) (j : Nat) : v ∈ vars → 1 ≤ j → ((∃ d, AtV v d ∧ (j : Int) + 1 ≤ d) ∨ ∀ d, AtV v d → d ≤ -((j : Int) + 1)) →
      Added vars shocks AtV AtS (v ++ "_LEAD" ++ toString j)

end Spec

/-! ## Equations -/

section
variable {K : Type} [Field K] {ord : List (TSym × TSym) → List (TSym × TSym)} {vars shocks : List String} {eqs : List (Eqn K)}

/-- The names that the parser adds to equations. -/
abbrev AddedE (vars shocks : List String) (eqs : List (Eqn K)) : String → Prop :=
  Spec.Added vars shocks (fun v d => d ∈ dates .variable v eqs) (fun s d => d ∈ dates .shock s eqs)

/-- The dates of declared variables are not changed by the treatment of the shocks. -/
theorem shockStage_dates (ho : IsOrder ord) {v : String} (hv : ∀ n ∈ lagged (lagOf eqs) shocks, v ≠ varOf n) (d : Int) :
    d ∈ dates .variable v (shockStage ord vars shocks eqs).eqs ↔ d ∈ dates .variable v eqs := by
  rw [mem_dates_iff, mem_dates_iff]
  constructor
  · rintro ⟨e, he, s, hs, hk, hn, hd⟩
    rcases shockFold_depth ho (lagOf eqs) shocks ⟨vars, eqs⟩ e he s hs with ⟨e', he', hs'⟩ | ⟨m, hm, _, _, _, rfl⟩ | ⟨m, hm, rfl⟩
    · exact ⟨e', he', s, hs', hk, hn, hd⟩
    · exact absurd hn.symm (hv m hm)
    · cases hk
  · rintro ⟨e, he, s, hs, hk, hn, hd⟩
    obtain ⟨e', he', hs'⟩ := shockFold_keeps ho (lagOf eqs) shocks ⟨vars, eqs⟩ e he s hs hk
    exact ⟨e', he', s, hs', hk, hn, hd⟩

/-- The added variable of a lagged shock has its lags. -/
theorem shockStage_own (ho : IsOrder ord) (hw : WellFormed vars shocks eqs) (hlead : ∀ s d, d ∈ dates .shock s eqs → d ≤ 0)
    {s : String} (hs : s ∈ lagged (lagOf eqs) shocks) (hc : varOf s ∉ vars) (hocc : dates .shock s eqs ≠ []) :
    (dates .variable (varOf s) (shockStage ord vars shocks eqs).eqs ≠ []) ∧
      minDate (dates .variable (varOf s) (shockStage ord vars shocks eqs).eqs) = minDate (dates .shock s eqs) ∧
      maxDate (dates .variable (varOf s) (shockStage ord vars shocks eqs).eqs) = 0 := by
  have h0 : (0 : Int) ∈ dates .variable (varOf s) (shockStage ord vars shocks eqs).eqs := by
    obtain ⟨e, he, h⟩ := shockFold_own (K := K) ho (lagOf eqs) shocks ⟨vars, eqs⟩ s hs
    exact mem_dates_iff.2 ⟨e, he, _, h, rfl, rfl, rfl⟩
  have hne : dates .variable (varOf s) (shockStage ord vars shocks eqs).eqs ≠ [] := List.ne_nil_of_mem h0
  have hmin := minDate_mem _ hocc
  have hmin0 := hlead _ _ hmin
  have hpos : 0 < (minDate (dates .shock s eqs)).natAbs := by
    simpa only [lagged, List.mem_filter, decide_eq_true_eq] using (List.mem_filter.1 hs).2
  have hdep : ∀ d ∈ dates .variable (varOf s) (shockStage ord vars shocks eqs).eqs, minDate (dates .shock s eqs) ≤ d ∧ d ≤ 0 := by
    intro d hd
    obtain ⟨e, he, t, ht, hk, hn, rfl⟩ := mem_dates_iff.1 hd
    rcases shockFold_depth ho (lagOf eqs) shocks ⟨vars, eqs⟩ e he t ht with ⟨e', he', ht'⟩ | ⟨m, hm, d, hd0, hd', rfl⟩ | ⟨m, hm, rfl⟩
    · exact absurd (hn ▸ (hw e' he' t ht').2.1 hk) hc
    · have : m = s := varOf_inj hn
      subst this
      have hd'' : -((minDate (dates .shock m eqs)).natAbs : Int) ≤ d := hd'
      exact ⟨by simp only [vsym, TSym.mk']; omega, hd0⟩
    · cases hk
  have hhit : minDate (dates .shock s eqs) ∈ dates .variable (varOf s) (shockStage ord vars shocks eqs).eqs := by
    obtain ⟨e, he, t, ht, hk, hn, hd⟩ := mem_dates_iff.1 hmin
    have hex := (hw e he t ht).1
    obtain ⟨i, hi⟩ : ∃ i : Nat, minDate (dates .shock s eqs) = -((i : Int) + 1) := ⟨(minDate (dates .shock s eqs)).natAbs - 1, by omega⟩
    have htt : t = ssym s (-((i : Int) + 1)) := by
      cases t
      simp only [ssym, TSym.mk'] at *
      subst hk hn hex
      rw [hd, hi]
    obtain ⟨e', he', h'⟩ := shockFold_hit (K := K) ho (lagOf eqs) shocks ⟨vars, eqs⟩ s hs i
      (show i < (minDate (dates .shock s eqs)).natAbs by omega) ⟨e, he, htt ▸ ht⟩
    rw [hi]
    exact mem_dates_iff.2 ⟨e', he', _, h', rfl, rfl, rfl⟩
  refine ⟨hne, le_antisymm (minDate_le _ _ hhit) (hdep _ (minDate_mem _ hne)).1, le_antisymm (hdep _ (maxDate_mem _ hne)).2 (le_maxDate _ _ h0)⟩

theorem lagged_iff (hlead : ∀ s d, d ∈ dates .shock s eqs → d ≤ 0) (hocc : ∀ s ∈ shocks, dates .shock s eqs ≠ []) (s : String) :
    s ∈ lagged (lagOf eqs) shocks ↔ s ∈ shocks ∧ ∃ d ∈ dates .shock s eqs, d < 0 := by
  simp only [lagged, List.mem_filter, decide_eq_true_eq]
  refine and_congr_right fun hs => ?_
  constructor
  · intro h
    have := hlead _ _ (minDate_mem _ (hocc s hs))
    have h' : 0 < (minDate (dates .shock s eqs)).natAbs := h
    exact ⟨_, minDate_mem _ (hocc s hs), by omega⟩
  · rintro ⟨d, hd, h⟩
    have := minDate_le _ _ hd
    show 0 < (minDate (dates .shock s eqs)).natAbs
    omega

/-- The names that are added, as a list. -/
theorem added_iff (ho : IsOrder ord) (hw : WellFormed vars shocks eqs) (hlead : ∀ s d, d ∈ dates .shock s eqs → d ≤ 0)
    (hS : ∀ s ∈ shocks, dates .shock s eqs ≠ []) (hV : ∀ v ∈ vars, dates .variable v eqs ≠ [])
    (hc : ∀ n ∈ lagged (lagOf eqs) shocks, varOf n ∉ vars) (x : String) :
    (x ∈ (lagged (lagOf eqs) shocks).map varOf ∨
      x ∈ endoNames (shockStage ord vars shocks eqs).vars (nOf (shockStage ord vars shocks eqs)) (kOf (shockStage ord vars shocks eqs))) ↔
      AddedE vars shocks eqs x := by
  have hv1 : (shockStage ord vars shocks eqs).vars = vars ++ (lagged (lagOf eqs) shocks).map varOf := shockFold_vars ord _ shocks ⟨vars, eqs⟩
  have hmin : ∀ v ∈ vars, ∀ j : Nat, 0 < j → (j ≤ nOf (shockStage ord vars shocks eqs) v ↔
      (∃ d, d ∈ dates .variable v eqs ∧ d ≤ -(j : Int)) ∨ ∀ d, d ∈ dates .variable v eqs → (j : Int) ≤ d) := by
    intro v hv j hj
    have hd := fun d => shockStage_dates (vars := vars) ho (fun n hn h => hc n hn (h ▸ hv)) d (v := v) (shocks := shocks) (eqs := eqs)
    have hne : dates .variable v (shockStage ord vars shocks eqs).eqs ≠ [] := by
      obtain ⟨d, hd'⟩ := List.exists_mem_of_ne_nil _ (hV v hv)
      exact List.ne_nil_of_mem ((hd d).2 hd')
    rw [minDate_abs _ hne j hj]
    simp only [hd]
  have hmax : ∀ v ∈ vars, ∀ j : Nat, 0 < j → (j ≤ kOf (shockStage ord vars shocks eqs) v ↔
      (∃ d, d ∈ dates .variable v eqs ∧ (j : Int) ≤ d) ∨ ∀ d, d ∈ dates .variable v eqs → d ≤ -(j : Int)) := by
    intro v hv j hj
    have hd := fun d => shockStage_dates (vars := vars) ho (fun n hn h => hc n hn (h ▸ hv)) d (v := v) (shocks := shocks) (eqs := eqs)
    have hne : dates .variable v (shockStage ord vars shocks eqs).eqs ≠ [] := by
      obtain ⟨d, hd'⟩ := List.exists_mem_of_ne_nil _ (hV v hv)
      exact List.ne_nil_of_mem ((hd d).2 hd')
    rw [maxDate_abs _ hne j hj]
    simp only [hd]
  rw [mem_endoNames, hv1]
  constructor
  · rintro (h | ⟨v, hv, h⟩)
    · obtain ⟨s, hs, rfl⟩ := List.mem_map.1 h
      obtain ⟨h1, d, hd, h2⟩ := (lagged_iff hlead hS s).1 hs
      exact .shock s d h1 hd h2
    · rcases List.mem_append.1 hv with hv | hv
      · rcases h with ⟨j, hj, rfl⟩ | ⟨j, hj, rfl⟩
        · have := (hmin v hv (j + 2) (by omega)).1 (by omega)
          exact .lag v (j + 1) hv (by omega) (by push_cast at this ⊢; simpa only [add_assoc, one_add_one_eq_two] using this)
        · have := (hmax v hv (j + 2) (by omega)).1 (by omega)
          exact .lead v (j + 1) hv (by omega) (by push_cast at this ⊢; simpa only [add_assoc, one_add_one_eq_two] using this)
      · obtain ⟨s, hs, rfl⟩ := List.mem_map.1 hv
        obtain ⟨h1, d, hd, h2⟩ := (lagged_iff hlead hS s).1 hs
        obtain ⟨_, e1, e2⟩ := shockStage_own (vars := vars) ho hw hlead hs (hc s hs) (hS s h1)
        rcases h with ⟨j, hj, rfl⟩ | ⟨j, hj, rfl⟩
        · have hj' : j + 1 < (minDate (dates .variable (varOf s) (shockStage ord vars shocks eqs).eqs)).natAbs := hj
          rw [e1] at hj'
          have := hlead _ _ (minDate_mem _ (hS s h1))
          exact .shockLag s _ (j + 1) h1 (minDate_mem _ (hS s h1)) (by omega) (by push_cast; omega)
        · have hj' : j + 1 < (maxDate (dates .variable (varOf s) (shockStage ord vars shocks eqs).eqs)).natAbs := hj
          rw [e2] at hj'
          simp at hj'
  · intro h
    cases h with
    | shock s d h1 h2 h3 => exact Or.inl (List.mem_map.2 ⟨s, (lagged_iff hlead hS s).2 ⟨h1, d, h2, h3⟩, rfl⟩)
    | shockLag s d j h1 h2 h3 h4 =>
      have hs := (lagged_iff hlead hS s).2 ⟨h1, d, h2, by omega⟩
      obtain ⟨_, e1, _⟩ := shockStage_own (vars := vars) ho hw hlead hs (hc s hs) (hS s h1)
      have := minDate_le _ _ h2
      refine Or.inr ⟨varOf s, List.mem_append_right _ (List.mem_map_of_mem hs), Or.inl ⟨j - 1, ?_, ?_⟩⟩
      · show _ < (minDate (dates .variable (varOf s) (shockStage ord vars shocks eqs).eqs)).natAbs
        rw [e1]; omega
      · rw [show j - 1 + 1 = j by omega]; rfl
    | lag v j h1 h2 h3 =>
      refine Or.inr ⟨v, List.mem_append_left _ h1, Or.inl ⟨j - 1, ?_, by rw [show j - 1 + 1 = j by omega]; rfl⟩⟩
      have := (hmin v h1 (j + 1) (by omega)).2 (by push_cast; exact h3)
      omega
    | lead v j h1 h2 h3 =>
      refine Or.inr ⟨v, List.mem_append_left _ h1, Or.inr ⟨j - 1, ?_, by rw [show j - 1 + 1 = j by omega]; rfl⟩⟩
      have := (hmax v h1 (j + 1) (by omega)).2 (by push_cast; exact h3)
      omega

/-- The matrices exist iff every symbol is known and every equation that mentions anything has a row. -/
theorem matrices_iff (I : Interp K) : (∃ M, getMatrices I true vars shocks eqs = .ok M) ↔
    ∀ i e, eqs[i]? = some e → (∀ s ∈ e.syms, (∃ v ∈ vars, s = vsym v 1 ∨ s = vsym v 0 ∨ s = vsym v (-1)) ∨ ∃ n ∈ shocks, s = ssym n) ∧
      (e.syms ≠ [] → i + 1 < vars.dedup.length) := by
  have hrow : ∀ i (e : Eqn K), rowCheck ((unique vars).length - 1) (unique vars) shocks i e = .ok () ↔
      (∀ s ∈ e.syms, (∃ v ∈ vars, s = vsym v 1 ∨ s = vsym v 0 ∨ s = vsym v (-1)) ∨ ∃ n ∈ shocks, s = ssym n) ∧
        (e.syms ≠ [] → i + 1 < vars.dedup.length) := by
    intro i e
    unfold rowCheck
    rw [unique_length]
    split
    · rename_i hbad
      refine iff_of_false (by simp) ?_
      rintro ⟨h, _⟩
      obtain ⟨s, hs, hb⟩ := List.any_eq_true.1 hbad
      simp only [decide_eq_true_eq, List.mem_map, mem_unique] at hb
      rcases h s hs with ⟨v, hv, rfl | rfl | rfl⟩ | ⟨n, hn, rfl⟩ <;>
        rcases hb with ⟨hk, hd, hx⟩ | ⟨hk, hd, hx⟩ | ⟨hk, hd, hx⟩ | ⟨hk, hx⟩ <;>
        first
        | exact hx ⟨_, ‹_›, rfl⟩
        | (revert hk; simp [vsym, ssym, TSym.mk']; done)
        | (revert hd; simp [vsym, ssym, TSym.mk']; done)
    · rename_i hok
      have hs : ∀ s ∈ e.syms, (∃ v ∈ vars, s = vsym v 1 ∨ s = vsym v 0 ∨ s = vsym v (-1)) ∨ ∃ n ∈ shocks, s = ssym n := by
        intro s hs
        simp only [List.any_eq_true, not_exists, not_and, decide_eq_true_eq, not_or, not_not] at hok
        obtain ⟨h1, h2, h3, h4⟩ := hok s hs
        simp only [List.mem_map, mem_unique] at h1 h2 h3 h4
        cases hk : s.kind with
        | shock => obtain ⟨n, hn, rfl⟩ := h4 hk; exact Or.inr ⟨n, hn, rfl⟩
        | «variable» =>
          rcases lt_trichotomy s.date 0 with hd | hd | hd
          · obtain ⟨n, hn, rfl⟩ := h3 hk hd; exact Or.inl ⟨n, hn, Or.inr (Or.inr rfl)⟩
          · obtain ⟨n, hn, rfl⟩ := h2 hk hd; exact Or.inl ⟨n, hn, Or.inr (Or.inl rfl)⟩
          · obtain ⟨n, hn, rfl⟩ := h1 hk hd; exact Or.inl ⟨n, hn, Or.inl rfl⟩
      split
      · rename_i hr
        refine iff_of_false (by simp) ?_
        rintro ⟨_, h⟩
        have := h hr.1
        have := hr.2
        omega
      · rename_i hr
        refine iff_of_true rfl ⟨hs, fun hne => ?_⟩
        by_contra hlt
        exact hr ⟨hne, by omega⟩
  have hok := checkRows_ok ((unique vars).length - 1) (unique vars) shocks 0 eqs
  simp only [Nat.zero_add, hrow] at hok
  rw [← hok]
  unfold getMatrices
  simp only [if_true]
  cases checkRows ((unique vars).length - 1) (unique vars) shocks 0 eqs with
  | error e => simp
  | ok u => simp

theorem allOccur_iff {k : Kind} {ns : List String} {eqs : List (Eqn K)} :
    allOccur k ns eqs = .ok () ↔ ∀ n ∈ ns, dates k n eqs ≠ [] := by
  unfold allOccur
  constructor
  · intro h n hn
    split at h
    · rename_i h'
      have := List.all_eq_true.1 h' n hn
      intro h0
      rw [h0] at this
      cases this
    · cases h
  · intro h
    rw [if_pos]
    rw [List.all_eq_true]
    intro n hn
    simp [h n hn]

theorem parseEqs_iff {st : PState K} : parseEqs ord vars shocks eqs = .ok st ↔ eqs.length + 1 = vars.length ∧
    (∀ s ∈ shocks, dates .shock s eqs ≠ []) ∧
    (∀ v ∈ (shockStage ord vars shocks eqs).vars, dates .variable v (shockStage ord vars shocks eqs).eqs ≠ []) ∧
    st = endoStage ord (shockStage ord vars shocks eqs) := by
  constructor
  · intro h
    obtain ⟨h1, h2⟩ := parseEqs_ok h
    obtain ⟨h3, h4⟩ := parseEqs_occur h
    exact ⟨h1, allOccur_iff.1 h3, allOccur_iff.1 h4, h2⟩
  · rintro ⟨h1, h2, h3, rfl⟩
    unfold parseEqs
    rw [if_neg (by omega), allOccur_iff.2 h2]
    simp only
    rw [allOccur_iff.2 h3]

theorem parsed_sizes : sizes (endoStage ord (shockStage ord vars shocks eqs)).eqs = sizes eqs ++ List.replicate
    ((lagged (lagOf eqs) shocks).length + (endoEqs (K := K) (shockStage ord vars shocks eqs).vars (nOf (shockStage ord vars shocks eqs))
      (kOf (shockStage ord vars shocks eqs))).length) 2 := by
  have hz1 : sizes (shockStage ord vars shocks eqs).eqs = sizes eqs ++ List.replicate (lagged (lagOf eqs) shocks).length 2 :=
    shockFold_sizes ord _ shocks ⟨vars, eqs⟩
  rw [endoStage_eqs, sizes_subs, sizes_append, hz1, endoEqs_sizes, List.append_assoc, ← List.replicate_add]

/-- Which systems of equations pass the parser and get their matrices. -/
theorem system_iff (I : Interp K) (ho : IsOrder ord) (hw : WellFormed vars shocks eqs) (hnd : shocks.Nodup) :
    (∃ st M, parseEqs ord vars shocks eqs = .ok st ∧ getMatrices I true st.vars shocks st.eqs = .ok M) ↔
      eqs.length + 1 = vars.length ∧ (∀ s ∈ shocks, dates .shock s eqs ≠ []) ∧ (∀ v ∈ vars, dates .variable v eqs ≠ []) ∧
      (∀ s d, d ∈ dates .shock s eqs → d ≤ 0) ∧
      ((vars.Nodup ∧ ∀ x, AddedE vars shocks eqs x → x ∉ vars) ∨
        ((∀ x, ¬ AddedE vars shocks eqs x) ∧ ∀ i e, eqs[i]? = some e → vars.dedup.length ≤ i + 1 → e.syms = [])) := by
  have hv1 : (shockStage ord vars shocks eqs).vars = vars ++ (lagged (lagOf eqs) shocks).map varOf := shockFold_vars ord _ shocks ⟨vars, eqs⟩
  constructor
  · rintro ⟨st, M, hp, hM⟩
    have hadd := added_nodup I hp M hM
    obtain ⟨hlen, hS, hV1, rfl⟩ := parseEqs_iff.1 hp
    have hrows := (matrices_iff I).1 ⟨M, hM⟩
    have hlead : ∀ s d, d ∈ dates .shock s eqs → d ≤ 0 := by
      intro s d hd
      obtain ⟨e, he, t, ht, hk, hn, rfl⟩ := mem_dates_iff.1 hd
      by_contra hpos
      obtain ⟨e1, he1, ht1⟩ := shockFold_leads (K := K) ho (lagOf eqs) shocks ⟨vars, eqs⟩ e he t ht (by omega)
      have hm : Eqn.subs (ord (endoDict (shockStage ord vars shocks eqs).vars (nOf (shockStage ord vars shocks eqs))
          (kOf (shockStage ord vars shocks eqs)))) e1 ∈ (endoStage ord (shockStage ord vars shocks eqs)).eqs := by
        rw [endoStage_eqs]
        exact List.mem_map_of_mem (List.mem_append_left _ he1)
      have ht2 := Eqn.mem_subs (ord (endoDict (shockStage ord vars shocks eqs).vars (nOf (shockStage ord vars shocks eqs))
        (kOf (shockStage ord vars shocks eqs)))) e1 t ht1 (by
          intro kv hkv heq
          rw [(ho _).mem_iff, mem_endoDict] at hkv
          obtain ⟨v, _, ⟨j, _, rfl⟩ | ⟨j, _, rfl⟩⟩ := hkv <;> (rw [heq] at hk; cases hk))
      obtain ⟨i, hi⟩ := List.mem_iff_getElem?.1 hm
      rcases (hrows i _ hi).1 t ht2 with ⟨v, _, rfl | rfl | rfl⟩ | ⟨n, _, rfl⟩
      · cases hk
      · cases hk
      · cases hk
      · simp [ssym, TSym.mk'] at hpos
    have hc : ∀ n ∈ lagged (lagOf eqs) shocks, varOf n ∉ vars := by
      intro n hn hm
      rcases hadd with h | ⟨h, _⟩
      · rw [endoStage_vars, hv1] at h
        have := (List.nodup_append.1 (List.nodup_append.1 h).1).2.2
        exact this _ hm _ (List.mem_map_of_mem hn) rfl
      · rw [h] at hn; cases hn
    have hV : ∀ v ∈ vars, dates .variable v eqs ≠ [] := by
      intro v hv
      obtain ⟨d, hd⟩ := List.exists_mem_of_ne_nil _ (hV1 v (by rw [hv1]; exact List.mem_append_left _ hv))
      exact List.ne_nil_of_mem ((shockStage_dates ho (fun n hn h => hc n hn (h ▸ hv)) d).1 hd)
    have hiff := added_iff ho hw hlead hS hV hc
    refine ⟨hlen, hS, hV, hlead, ?_⟩
    rcases hadd with h | ⟨h1, h2⟩
    · left
      rw [endoStage_vars] at h
      have h' := (List.nodup_append.1 h).1
      rw [hv1] at h'
      refine ⟨(List.nodup_append.1 h').1, fun x hx hxv => ?_⟩
      rcases (hiff x).2 hx with hm | hm
      · exact (List.nodup_append.1 h').2.2 x hxv x hm rfl
      · exact (List.nodup_append.1 h).2.2 x (by rw [hv1]; exact List.mem_append_left _ hxv) x hm rfl
    · right
      refine ⟨fun x hx => ?_, fun i e he hle => ?_⟩
      · rcases (hiff x).2 hx with hm | hm
        · rw [h1] at hm; cases hm
        · rw [h2] at hm; cases hm
      · by_contra hne
        have hsz := parsed_sizes (ord := ord) (vars := vars) (shocks := shocks) (eqs := eqs)
        rw [h1, ← endoNames_length, h2, List.length_nil, Nat.add_zero, List.replicate_zero, List.append_nil] at hsz
        have hi : (sizes eqs)[i]? = some e.syms.length := by simp [sizes, he]
        rw [← hsz] at hi
        simp only [sizes, List.getElem?_map, Option.map_eq_some_iff] at hi
        obtain ⟨e', he', hl⟩ := hi
        have := (hrows i e' he').2 (by intro h0; rw [h0] at hl; exact hne (List.length_eq_zero_iff.1 hl.symm))
        rw [endoStage_vars, h2, List.append_nil, hv1, h1, List.map_nil, List.append_nil] at this
        omega
  · rintro ⟨hlen, hS, hV, hlead, hname⟩
    have hc : ∀ n ∈ lagged (lagOf eqs) shocks, varOf n ∉ vars := by
      intro n hn
      obtain ⟨h1, d, hd, h2⟩ := (lagged_iff hlead hS n).1 hn
      have ha : AddedE vars shocks eqs (varOf n) := .shock n d h1 hd h2
      rcases hname with ⟨_, h⟩ | ⟨h, _⟩
      · exact h _ ha
      · exact absurd ha (h _)
    have hiff := added_iff ho hw hlead hS hV hc
    have hp : parseEqs ord vars shocks eqs = .ok (endoStage ord (shockStage ord vars shocks eqs)) := by
      refine parseEqs_iff.2 ⟨hlen, hS, ?_, rfl⟩
      intro v hv
      rw [hv1] at hv
      rcases List.mem_append.1 hv with hv | hv
      · obtain ⟨d, hd⟩ := List.exists_mem_of_ne_nil _ (hV v hv)
        exact List.ne_nil_of_mem ((shockStage_dates ho (fun n hn h => hc n hn (h ▸ hv)) d).2 hd)
      · obtain ⟨n, hn, rfl⟩ := List.mem_map.1 hv
        exact (shockStage_own ho hw hlead hn (hc n hn) (hS n ((lagged_iff hlead hS n).1 hn).1)).1
    have hsl : ∀ e ∈ eqs, ∀ s ∈ e.syms, s.kind = .shock → s.date ≤ 0 :=
      fun e he s hs hk => hlead s.name s.date (mem_dates_iff.2 ⟨e, he, s, hs, hk, rfl, rfl⟩)
    have hmat : ∃ M, getMatrices I true (endoStage ord (shockStage ord vars shocks eqs)).vars shocks
        (endoStage ord (shockStage ord vars shocks eqs)).eqs = .ok M := by
      rcases hname with ⟨h1, h2⟩ | ⟨h1, h2⟩
      · refine C36_accepted I ho hp hw hsl ?_
        have hs1 : (shockStage ord vars shocks eqs).vars.Nodup := by
          rw [hv1, List.nodup_append]
          refine ⟨h1, (hnd.filter _).map_on (fun a _ b _ h => varOf_inj h), ?_⟩
          rintro a ha b hb rfl
          obtain ⟨n, hn, rfl⟩ := List.mem_map.1 hb
          exact hc n hn ha
        rw [endoStage_vars, List.nodup_append]
        refine ⟨hs1, endoNames_nodup _ _ hs1, ?_⟩
        rintro a ha b hb rfl
        rw [hv1] at ha
        rcases List.mem_append.1 ha with ha | ha
        · exact h2 a ((hiff a).1 (Or.inr hb)) ha
        · obtain ⟨n, hn, rfl⟩ := List.mem_map.1 ha
          obtain ⟨v, _, ⟨j, _, hj⟩ | ⟨j, _, hj⟩⟩ := (mem_endoNames _ _ _ _).1 hb
          · exact lagVar_ne_varOf hj.symm
          · exact leadVar_ne_varOf hj.symm
      · have e1 : lagged (lagOf eqs) shocks = [] := by
          by_contra hne
          obtain ⟨n, hn⟩ := List.exists_mem_of_ne_nil _ hne
          exact h1 _ ((hiff (varOf n)).1 (Or.inl (List.mem_map_of_mem hn)))
        have e2 : endoNames (shockStage ord vars shocks eqs).vars (nOf (shockStage ord vars shocks eqs))
            (kOf (shockStage ord vars shocks eqs)) = [] := by
          by_contra hne
          obtain ⟨n, hn⟩ := List.exists_mem_of_ne_nil _ hne
          exact h1 _ ((hiff n).1 (Or.inr hn))
        have hsz := parsed_sizes (ord := ord) (vars := vars) (shocks := shocks) (eqs := eqs)
        rw [e1, ← endoNames_length, e2, List.length_nil, Nat.add_zero, List.replicate_zero, List.append_nil] at hsz
        rw [matrices_iff]
        intro i e he
        refine ⟨fun s hs => ?_, fun hne => ?_⟩
        · obtain ⟨hv, hk⟩ := C36_first_order ho hp hw hsl e (List.mem_of_getElem? he) s hs
          cases hkind : s.kind with
          | shock => exact Or.inr (hk hkind)
          | «variable» =>
            obtain ⟨v, hvm, h | h | h⟩ := hv hkind
            · exact Or.inl ⟨v, hvm, Or.inr (Or.inr h)⟩
            · exact Or.inl ⟨v, hvm, Or.inr (Or.inl h)⟩
            · exact Or.inl ⟨v, hvm, Or.inl h⟩
        · rw [endoStage_vars, e2, List.append_nil, hv1, e1, List.map_nil, List.append_nil]
          by_contra hlt
          have hi : (sizes (endoStage ord (shockStage ord vars shocks eqs)).eqs)[i]? = some e.syms.length := by simp [sizes, he]
          rw [hsz] at hi
          simp only [sizes, List.getElem?_map, Option.map_eq_some_iff] at hi
          obtain ⟨e', he', hl⟩ := hi
          have := h2 i e' he' (by omega)
          rw [this] at hl
          exact hne (List.length_eq_zero_iff.1 hl.symm)
    obtain ⟨M, hM⟩ := hmat
    exact ⟨_, M, hp, hM⟩

end

/-! ## Files -/

namespace Spec
variable {K : Type}

/-- The names of an expression with their dates. -/
def occ : Raw K → List (String × Int)
  | .num _ => []
  | .name n => [(n, 0)]
  | .call n d => [(n, d)]
  | .add a b | .sub a b | .mul a b | .div a b | .app _ a b => occ a ++ occ b
  | .neg a | .pow a _ => occ a

/-- The names of an expression that are written with a date. -/
def called : Raw K → List String
  | .num _ => []
  | .name _ => []
  | .call n _ => [n]
  | .add a b | .sub a b | .mul a b | .div a b | .app _ a b => called a ++ called b
  | .neg a | .pow a _ => called a

/-- Every name is declared, and only variables and shocks are dated. -/
def Readable (f : File K) (r : Raw K) : Prop :=
  (∀ n ∈ names r, n ∈ f.vars ∨ n ∈ f.pars ∨ n ∈ f.shocks ∨ n ∈ f.other) ∧ ∀ n ∈ called r, n ∈ f.vars ∨ n ∈ f.shocks

/-- The model equations contain `n(d)`. -/
def At (f : File K) (n : String) (d : Int) : Prop := ∃ e ∈ f.eqs, ∃ r ∈ e.first :: e.rest, (n, d) ∈ occ r

/-- The files that are accepted. -/
structure Accepted (f : File K) : Prop where
  spaces : ∀ v ∈ f.vars, ' ' ∉ v.toList
  /-- the name of a variable is used for nothing else, that of a shock not for a function of parameters -/
  varNames : ∀ n ∈ f.vars, n ∉ f.pars ∧ n ∉ f.shocks ∧ n ∉ f.other
  shockNames : ∀ n ∈ f.shocks, n ∉ f.other
  /-- one constraint `c = r`, with variables of this and the last period and shocks of this period -/
  constraint : ∃ c r, f.cons = [(c, [r])] ∧ c ∈ f.vars ∧ Readable f r ∧
    ∀ n d, (n, d) ∈ occ r → (n ∈ f.vars → d = 0 ∨ d = -1) ∧ (n ∈ f.shocks → d = 0)
  count : f.eqs.length + 1 = f.vars.length
  /-- equations with at most one `=` and without leads of shocks -/
  equations : ∀ e ∈ f.eqs, e.rest.length ≤ 1 ∧ ∀ r ∈ e.first :: e.rest, Readable f r ∧ ∀ n d, (n, d) ∈ occ r → n ∈ f.shocks → d ≤ 0
  used : ∀ n, n ∈ f.vars ∨ n ∈ f.shocks → ∃ e ∈ f.eqs, n ∈ eqNames e
  /-- no variable is declared twice or has the name of an added one; if no name is added, variables that are declared twice are accepted
  together with as many equations at the end in which there is no variable and no shock -/
  distinct : (f.vars.Nodup ∧ ∀ x, Added f.vars f.shocks (At f) (At f) x → x ∉ f.vars) ∨
    ((∀ x, ¬ Added f.vars f.shocks (At f) (At f) x) ∧
      ∀ i e, f.eqs[i]? = some e → f.vars.dedup.length ≤ i + 1 → ∀ n ∈ eqNames e, n ∉ f.vars ∧ n ∉ f.shocks)
  /-- measurement equations with a name, and no model symbols but variables of this and the last period -/
  observables : ∀ r ∈ f.obs, names r ≠ [] ∧ Readable f r ∧ "sum" ∉ names r ∧ "range" ∉ names r ∧
    ∀ n d, (n, d) ∈ occ r → n ∉ f.shocks ∧ (n ∈ f.vars → d = 0 ∨ d = -1)

end Spec

section
variable {K : Type}

theorem occ_names (r : Raw K) (n : String) : n ∈ names r ↔ ∃ d, (n, d) ∈ occ r := by
  induction r with
  | num c => simp [names, occ]
  | name m => simp [names, occ]
  | call m d => simp [names, occ]
  | neg a ih | pow a n ih => exact ih
  | _ =>
    rename_i iha ihb
    simp only [names, occ, List.mem_append, iha, ihb]
    exact ⟨fun h => h.elim (fun ⟨d, h⟩ => ⟨d, Or.inl h⟩) (fun ⟨d, h⟩ => ⟨d, Or.inr h⟩),
      fun ⟨d, h⟩ => h.elim (fun h => Or.inl ⟨d, h⟩) (fun h => Or.inr ⟨d, h⟩)⟩

theorem called_names (r : Raw K) (n : String) (h : n ∈ called r) : n ∈ names r := by
  induction r with
  | num c => cases h
  | name m => cases h
  | call m d => exact h
  | neg a ih | pow a n ih => exact ih h
  | _ =>
    rename_i iha ihb
    simp only [names, called, List.mem_append] at h ⊢
    exact h.imp iha ihb

/-- Which expressions can be read. -/
theorem evalRaw_iff (ctx : String → Option Meaning) (r : Raw K) :
    (∃ e, evalRaw ctx r = .ok e) ↔ (∀ n ∈ names r, ctx n ≠ none) ∧ ∀ n ∈ called r, ctx n ≠ some .par := by
  induction r with
  | num c => simp [evalRaw, names, called]
  | name m =>
    simp only [evalRaw, names, called, List.mem_singleton, List.not_mem_nil, false_imp_iff, implies_true, and_true, forall_eq]
    cases h : ctx m with
    | none => simp
    | some k => cases k <;> simp
  | call m d =>
    simp only [evalRaw, names, called, List.mem_singleton, forall_eq]
    cases h : ctx m with
    | none => simp
    | some k => cases k <;> simp
  | neg a ih | pow a n ih =>
    simp only [names, called]
    rw [← ih]
    simp only [evalRaw]
    constructor
    · rintro ⟨e, h⟩
      obtain ⟨x, hx, _⟩ := bind_ok h
      exact ⟨x, hx⟩
    · rintro ⟨x, hx⟩
      rw [hx]; exact ⟨_, rfl⟩
  | _ =>
    rename_i a b iha ihb
    simp only [names, called, List.mem_append, or_imp, forall_and]
    rw [and_and_and_comm, ← iha, ← ihb]
    simp only [evalRaw]
    constructor
    · rintro ⟨e, h⟩
      obtain ⟨x, hx, h⟩ := bind_ok h
      obtain ⟨y, hy, _⟩ := bind_ok h
      exact ⟨⟨x, hx⟩, ⟨y, hy⟩⟩
    · rintro ⟨⟨x, hx⟩, ⟨y, hy⟩⟩
      rw [hx, hy]; exact ⟨_, rfl⟩

/-- The symbols of an expression that has been read. -/
theorem evalRaw_occ (ctx : String → Option Meaning) (r : Raw K) (e : Expr K) (h : evalRaw ctx r = .ok e) (s : TSym) :
    s ∈ e.syms ↔ ∃ n d k, (n, d) ∈ occ r ∧ ctx n = some (.sym k) ∧ s = TSym.mk' k n d := by
  induction r generalizing e with
  | num c => simp only [evalRaw, Except.ok.injEq] at h; subst h; simp [Expr.syms, occ]
  | name m =>
    simp only [evalRaw] at h
    cases hc : ctx m with
    | none => rw [hc] at h; cases h
    | some k =>
      rw [hc] at h
      cases k with
      | par => simp only [Except.ok.injEq] at h; subst h; simp [Expr.syms, occ, hc]
      | sym k =>
        simp only [Except.ok.injEq] at h; subst h
        simp only [Expr.syms, occ, List.mem_singleton, Prod.mk.injEq]
        constructor
        · rintro rfl; exact ⟨m, 0, k, ⟨rfl, rfl⟩, hc, rfl⟩
        · rintro ⟨n, d, k', ⟨rfl, rfl⟩, hk, rfl⟩; rw [hc] at hk; cases hk; rfl
  | call m i =>
    simp only [evalRaw] at h
    cases hc : ctx m with
    | none => rw [hc] at h; cases h
    | some k =>
      rw [hc] at h
      cases k with
      | par => cases h
      | sym k =>
        simp only [Except.ok.injEq] at h; subst h
        simp only [Expr.syms, occ, List.mem_singleton, Prod.mk.injEq]
        constructor
        · rintro rfl; exact ⟨m, i, k, ⟨rfl, rfl⟩, hc, by simp [TSym.call, TSym.mk']⟩
        · rintro ⟨n, d, k', ⟨rfl, rfl⟩, hk, rfl⟩; rw [hc] at hk; cases hk; simp [TSym.call, TSym.mk']
  | neg a ih | pow a n ih =>
    simp only [evalRaw] at h
    obtain ⟨x, hx, h⟩ := bind_ok h
    cases h
    exact ih x hx
  | _ =>
    rename_i a b iha ihb
    simp only [evalRaw] at h
    obtain ⟨x, hx, h⟩ := bind_ok h
    obtain ⟨y, hy, h⟩ := bind_ok h
    cases h
    simp only [Expr.syms, occ, List.mem_append, iha x hx, ihb y hy]
    constructor
    · rintro (⟨n, d, k, h1, h2⟩ | ⟨n, d, k, h1, h2⟩)
      · exact ⟨n, d, k, Or.inl h1, h2⟩
      · exact ⟨n, d, k, Or.inr h1, h2⟩
    · rintro ⟨n, d, k, h1 | h1, h2⟩
      · exact Or.inl ⟨n, d, k, h1, h2⟩
      · exact Or.inr ⟨n, d, k, h1, h2⟩

/-- An expression has a name iff the text has one. -/
theorem evalRaw_hasName (ctx : String → Option Meaning) (r : Raw K) (e : Expr K) (h : evalRaw ctx r = .ok e) :
    Spec.HasName e ↔ names r ≠ [] := by
  induction r generalizing e with
  | num c => simp only [evalRaw, Except.ok.injEq] at h; subst h; simp [Spec.HasName, names]
  | name m =>
    simp only [evalRaw] at h
    split at h
    · cases h
    · simp only [Except.ok.injEq] at h; subst h; simp [Spec.HasName, names]
    · simp only [Except.ok.injEq] at h; subst h; simp [Spec.HasName, names]
  | call m i =>
    simp only [evalRaw] at h
    split at h
    · cases h
    · cases h
    · simp only [Except.ok.injEq] at h; subst h; simp [Spec.HasName, names]
  | neg a ih | pow a n ih =>
    simp only [evalRaw] at h
    obtain ⟨x, hx, h⟩ := bind_ok h
    cases h
    exact ih x hx
  | _ =>
    rename_i a b iha ihb
    simp only [evalRaw] at h
    obtain ⟨x, hx, h⟩ := bind_ok h
    obtain ⟨y, hy, h⟩ := bind_ok h
    cases h
    simp only [Spec.HasName, iha x hx, ihb y hy, names, ne_eq, List.append_eq_nil_iff]
    tauto

end

section
variable {K : Type}

theorem forall2_left {α β : Type} {R : α → β → Prop} {l : List α} {m : List β} (h : List.Forall₂ R l m) (i : Nat) (a : α) (ha : l[i]? = some a) :
    ∃ b, m[i]? = some b ∧ R a b := by
  induction h generalizing i with
  | nil => simp at ha
  | cons hr _ ih =>
    cases i with
    | zero => simp only [List.getElem?_cons_zero, Option.some.injEq] at ha ⊢; subst ha; exact ⟨_, rfl, hr⟩
    | succ i => simp only [List.getElem?_cons_succ] at ha ⊢; exact ih i ha

theorem forall2_right {α β : Type} {R : α → β → Prop} {l : List α} {m : List β} (h : List.Forall₂ R l m) (i : Nat) (b : β) (hb : m[i]? = some b) :
    ∃ a, l[i]? = some a ∧ R a b := by
  induction h generalizing i with
  | nil => simp at hb
  | cons hr _ ih =>
    cases i with
    | zero => simp only [List.getElem?_cons_zero, Option.some.injEq] at hb ⊢; subst hb; exact ⟨_, rfl, hr⟩
    | succ i => simp only [List.getElem?_cons_succ] at hb ⊢; exact ih i hb

theorem Added_mono {vars shocks : List String} {AtV AtS BtV BtS : String → Int → Prop} (hv : ∀ v ∈ vars, ∀ d, AtV v d ↔ BtV v d)
    (hs : ∀ s ∈ shocks, ∀ d, AtS s d ↔ BtS s d) {x : String} (h : Spec.Added vars shocks AtV AtS x) : Spec.Added vars shocks BtV BtS x := by
  cases h with
  | shock s d h1 h2 h3 => exact .shock s d h1 ((hs s h1 d).1 h2) h3
  | shockLag s d j h1 h2 h3 h4 => exact .shockLag s d j h1 ((hs s h1 d).1 h2) h3 h4
  | lag v j h1 h2 h3 => exact .lag v j h1 h2 (by simpa only [hv v h1] using h3)
  | lead v j h1 h2 h3 => exact .lead v j h1 h2 (by simpa only [hv v h1] using h3)

theorem Added_congr {vars shocks : List String} {AtV AtS BtV BtS : String → Int → Prop} (hv : ∀ v ∈ vars, ∀ d, AtV v d ↔ BtV v d)
    (hs : ∀ s ∈ shocks, ∀ d, AtS s d ↔ BtS s d) (x : String) : Spec.Added vars shocks AtV AtS x ↔ Spec.Added vars shocks BtV BtS x :=
  ⟨Added_mono hv hs, Added_mono (fun v h d => (hv v h d).symm) (fun s h d => (hs s h d).symm)⟩

end

section
variable {K : Type} [Field K]

/-- Which equations can be read. -/
theorem readEq_iff (ctx : String → Option Meaning) (e : RawEq K) :
    (∃ e', readEq ctx e = .ok e') ↔ e.rest.length ≤ 1 ∧ ∀ r ∈ e.first :: e.rest, ∃ x, evalRaw ctx r = .ok x := by
  constructor
  · rintro ⟨e', h⟩
    obtain ⟨r, hr, h1, h2⟩ := readEq_ok ctx e e' h
    rcases hr with ⟨h0, rfl⟩ | h0
    · rw [h0]
      exact ⟨by simp, fun r hr => by rw [List.mem_singleton] at hr; subst hr; exact ⟨_, h1⟩⟩
    · rw [h0]
      refine ⟨by simp, fun r' hr => ?_⟩
      rcases List.mem_cons.1 hr with rfl | hr
      · exact ⟨_, h1⟩
      · rw [List.mem_singleton] at hr; subst hr; exact ⟨_, h2⟩
  · rintro ⟨hl, h⟩
    obtain ⟨x, hx⟩ := h e.first (List.mem_cons_self ..)
    unfold readEq
    simp only
    split
    · rw [hx]; exact ⟨_, rfl⟩
    · rename_i r hr
      obtain ⟨y, hy⟩ := h r (by rw [hr]; simp)
      rw [hx, hy]; exact ⟨_, rfl⟩
    · rename_i h1 h2
      exfalso
      cases hr : e.rest with
      | nil => exact h1 hr
      | cons a l =>
        rw [hr] at hl
        cases l with
        | nil => exact h2 a hr
        | cons b m => simp at hl

theorem readEqs_iff (ctx : String → Option Meaning) (es : List (RawEq K)) :
    (∃ es', readEqs ctx es = .ok es') ↔ ∀ e ∈ es, ∃ e', readEq ctx e = .ok e' := by
  constructor
  · rintro ⟨es', h⟩ e he
    obtain ⟨e', _, h'⟩ := readEqs_mem h e he
    exact ⟨e', h'⟩
  · induction es with
    | nil => intro _; exact ⟨[], rfl⟩
    | cons e es ih =>
      intro h
      obtain ⟨e', he'⟩ := h e (List.mem_cons_self ..)
      obtain ⟨es', hes'⟩ := ih (fun a ha => h a (List.mem_cons_of_mem _ ha))
      simp only [readEqs, he', hes']
      exact ⟨_, rfl⟩

theorem readObs_iff (ctx : String → Option Meaning) (es : List (Raw K)) :
    (∃ es', readObs ctx es = .ok es') ↔ ∀ e ∈ es, ∃ e', evalRaw ctx e = .ok e' := by
  constructor
  · rintro ⟨es', h⟩ e he
    obtain ⟨i, hi⟩ := List.mem_iff_getElem?.1 he
    obtain ⟨e', _, h'⟩ := forall2_left (readObs_ok ctx es es' h) i e hi
    exact ⟨e', h'⟩
  · induction es with
    | nil => intro _; exact ⟨[], rfl⟩
    | cons e es ih =>
      intro h
      obtain ⟨e', he'⟩ := h e (List.mem_cons_self ..)
      obtain ⟨es', hes'⟩ := ih (fun a ha => h a (List.mem_cons_of_mem _ ha))
      simp only [readObs, he', hes']
      exact ⟨_, rfl⟩

theorem readEq_occ {ctx : String → Option Meaning} {e : RawEq K} {e' : Eqn K} (h : readEq ctx e = .ok e') (s : TSym) :
    s ∈ e'.syms ↔ ∃ r ∈ e.first :: e.rest, ∃ n d k, (n, d) ∈ occ r ∧ ctx n = some (.sym k) ∧ s = TSym.mk' k n d := by
  obtain ⟨r, hr, h1, h2⟩ := readEq_ok ctx e e' h
  simp only [Eqn.syms, List.mem_append, evalRaw_occ ctx _ _ h1, evalRaw_occ ctx _ _ h2]
  rcases hr with ⟨h0, rfl⟩ | h0
  · rw [h0]
    simp [occ]
  · rw [h0]
    simp

theorem obsRows_iff (I : Interp K) (vars fvars : List String) (os : List (Expr K)) :
    (∃ rs, obsRows I vars fvars os = .ok rs) ↔ ∀ oe ∈ os, ∃ zz, getObs I vars fvars oe = .ok zz := by
  induction os with
  | nil => simp [obsRows]
  | cons oe os ih =>
    simp only [obsRows, List.mem_cons, forall_eq_or_imp]
    cases h1 : getObs I vars fvars oe with
    | error e => simp
    | ok zz =>
      simp only [Except.ok.injEq, exists_eq', true_and]
      rw [← ih]
      cases h2 : obsRows I vars fvars os with
      | error e => simp
      | ok rs => simp

theorem getConstraint_iff (I : Interp K) (vars shocks : List String) (ce : Eqn K) :
    (∃ R, getConstraint I vars shocks ce = .ok R) ↔
      ∀ s ∈ ce.syms, (∃ v ∈ vars, s = vsym v 0 ∨ s = vsym v (-1)) ∨ ∃ n ∈ shocks, s = ssym n := by
  unfold getConstraint
  constructor
  · rintro ⟨R, h⟩ s hs
    split at h
    · cases h
    split at h
    · cases h
    rename_i hbad
    have hb : ¬ (s.kind = .variable ∧ s ∉ vars.map (fun n => vsym n 0) ++ vars.map (fun n => vsym n (-1)) ∨
        s.kind = .shock ∧ s ∉ shocks.map (fun n => ssym n)) := fun hx => hbad (List.any_eq_true.2 ⟨s, hs, decide_eq_true hx⟩)
    by_contra hcon
    refine hb ?_
    cases hk : s.kind with
    | shock =>
      refine Or.inr ⟨rfl, fun hm => hcon (Or.inr ?_)⟩
      obtain ⟨n, hn, rfl⟩ := List.mem_map.1 hm
      exact ⟨n, hn, rfl⟩
    | «variable» =>
      refine Or.inl ⟨rfl, fun hm => hcon (Or.inl ?_)⟩
      rcases List.mem_append.1 hm with hm | hm
      · obtain ⟨n, hn, rfl⟩ := List.mem_map.1 hm; exact ⟨n, hn, Or.inl rfl⟩
      · obtain ⟨n, hn, rfl⟩ := List.mem_map.1 hm; exact ⟨n, hn, Or.inr rfl⟩
  · intro h
    rw [if_neg, if_neg]
    · exact ⟨_, rfl⟩
    · rw [List.any_eq_true]
      rintro ⟨s, hs, hb⟩
      simp only [decide_eq_true_eq, List.mem_append, List.mem_map] at hb
      rcases h s hs with ⟨v, hv, rfl | rfl⟩ | ⟨n, hn, rfl⟩
      · rcases hb with ⟨_, hx⟩ | ⟨hk, _⟩
        · exact hx (Or.inl ⟨v, hv, rfl⟩)
        · cases hk
      · rcases hb with ⟨_, hx⟩ | ⟨hk, _⟩
        · exact hx (Or.inr ⟨v, hv, rfl⟩)
        · cases hk
      · rcases hb with ⟨hk, _⟩ | ⟨_, hx⟩
        · cases hk
        · exact hx ⟨n, hn, rfl⟩
    · rw [List.any_eq_true]
      rintro ⟨s, hs, hb⟩
      simp only [decide_eq_true_eq] at hb
      rcases h s hs with ⟨v, hv, rfl | rfl⟩ | ⟨n, hn, rfl⟩
      · simp [vsym, TSym.mk'] at hb
      · simp [vsym, TSym.mk'] at hb
      · cases hb.1

variable {ord : List (TSym × TSym) → List (TSym × TSym)}

theorem compile_iff (I : Interp K) (src : Source K) : (∃ C, compile ord I src = .ok C) ↔ src.cvar ∈ src.vars ∧
    ∃ st M, parseEqs ord src.vars src.shocks src.eqs = .ok st ∧ getMatrices I true st.vars src.shocks st.eqs = .ok M ∧
      (∃ R, getConstraint I (unique st.vars) src.shocks src.con = .ok R) ∧
      ∃ os, obsRows I (unique st.vars) (fvarsOf st.eqs) src.obs = .ok os := by
  have hu : ∀ (vars shocks : List String) (eqs : List (Eqn K)) M, getMatrices I true vars shocks eqs = .ok M → M.vars = unique vars := by
    intro vars shocks eqs M h
    unfold getMatrices at h
    simp only at h
    split at h
    · cases h
    · simp only [Except.ok.injEq] at h; subst h; rfl
  unfold compile
  constructor
  · rintro ⟨C, h⟩
    split at h
    · cases h
    rename_i hc
    split at h
    · cases h
    rename_i st hp
    split at h
    · cases h
    rename_i R hR
    split at h
    · cases h
    rename_i M hM
    split at h
    · cases h
    rename_i os hos
    rw [hu _ _ _ _ hM] at hos
    exact ⟨by simpa using hc, st, M, hp, hM, ⟨R, hR⟩, os, hos⟩
  · rintro ⟨hc, st, M, hp, hM, ⟨R, hR⟩, os, hos⟩
    rw [← hu _ _ _ _ hM] at hos
    rw [if_neg (by simpa using hc)]
    simp only [hp, hR, hM, hos]
    exact ⟨_, rfl⟩

theorem readFile_iff (I : Interp K) (f : File K) : (∃ x, readFile ord I f = .ok x) ↔
    (∀ v ∈ f.vars, ' ' ∉ v.toList) ∧ f.eqs.length + 1 = f.vars.length ∧
    ∃ c r rhs eqs obs, f.cons = [(c, [r])] ∧ context f.vars f.pars f.shocks f.other c ≠ none ∧
      evalRaw (context f.vars f.pars f.shocks f.other) r = .ok rhs ∧
      readEqs (context f.vars f.pars f.shocks f.other) f.eqs = .ok eqs ∧
      readObs (obsContext (context f.vars f.pars f.shocks f.other)) f.obs = .ok obs ∧
      ∃ C, compile ord I ⟨f.vars, f.shocks, eqs, c, rhs, obs⟩ = .ok C := by
  constructor
  · rintro ⟨⟨src, C⟩, h⟩
    have hok := read_ok h
    unfold readFile at h
    by_cases h0 : (f.vars.any (fun v => ' ' ∈ v.toList)) = true
    · rw [if_pos h0] at h; cases h
    rw [if_neg h0] at h
    obtain ⟨h1, h2, h3, h4, h5, r, h6, h7⟩ := hok
    obtain ⟨hcv, st, M, hp, _⟩ := (compile_iff I src).1 ⟨C, h3⟩
    refine ⟨?_, ?_, src.cvar, r, src.crhs, src.eqs, src.obs, h6, ?_, h7, h4, h5, C, ?_⟩
    · intro v hv hsp
      exact h0 (List.any_eq_true.2 ⟨v, hv, by simpa using hsp⟩)
    · have := (parseEqs_iff.1 hp).1
      have hl := (readEqs_ok _ _ _ h4).length_eq
      rw [h1] at this
      omega
    · rw [Ne, context_none]
      rintro ⟨h, _⟩
      rw [h1] at hcv
      exact h hcv
    · rw [← h1, ← h2]; exact h3
  · rintro ⟨h0, hlen, c, r, rhs, eqs, obs, hcons, hc, hr, hE, hO, C, hC⟩
    have h0' : ¬ (f.vars.any (fun v => ' ' ∈ v.toList)) = true := by
      intro h
      obtain ⟨v, hv, hsp⟩ := List.any_eq_true.1 h
      exact h0 v hv (by simpa using hsp)
    unfold readFile
    rw [if_neg h0']
    simp only [hcons]
    have hcon : readCon (context f.vars f.pars f.shocks f.other) c [r] = .ok rhs := by
      unfold readCon
      obtain ⟨x, hx⟩ := (evalRaw_iff (context f.vars f.pars f.shocks f.other) (.name c : Raw K)).2
        ⟨fun n hn => by simp only [names, List.mem_singleton] at hn; subst hn; exact hc, fun n hn => by cases hn⟩
      simp only [hx, hr]
      rfl
    obtain ⟨_, st, M, hp, _⟩ := (compile_iff I _).1 ⟨C, hC⟩
    simp only at hp
    simp only [hcon]
    rw [if_neg (by omega)]
    simp only [hE, hp, hO, hC]
    exact ⟨_, rfl⟩

end
end Pydsge
