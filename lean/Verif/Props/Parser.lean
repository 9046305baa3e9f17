import Verif.Lemmas.ParserExt
import Mathlib.Tactic.NormNum
import Mathlib.Data.Rat.Cast.Order

/-!
# C36, C37, C38: leads and lags
-/

set_option autoImplicit false
set_option linter.unusedSectionVars false
set_option linter.unusedSimpArgs false

namespace Pydsge
open Parser

variable {K : Type} [Field K]

section
variable {ord : List (TSym × TSym) → List (TSym × TSym)} {vars shocks : List String} {eqs : List (Eqn K)} {st : PState K}

/-- What a successful run of the parser returns. -/
theorem parseEqs_ok (h : parseEqs ord vars shocks eqs = .ok st) :
    eqs.length + 1 = vars.length ∧ st = endoStage ord (shockStage ord vars shocks eqs) := by
  unfold parseEqs at h
  split at h
  · cases h
  · rename_i hl
    simp only [ne_eq, not_not] at hl
    split at h
    · cases h
    · split at h
      · cases h
      · simp only [Except.ok.injEq] at h
        exact ⟨hl, h.symm⟩

abbrev lagOf (eqs : List (Eqn K)) : String → Int := fun s => minDate (dates .shock s eqs)
abbrev nOf (st : PState K) : String → Nat := fun v => (minDate (dates .variable v st.eqs)).natAbs
abbrev kOf (st : PState K) : String → Nat := fun v => (maxDate (dates .variable v st.eqs)).natAbs

theorem endoStage_eqs (st : PState K) :
    (endoStage ord st).eqs = (st.eqs ++ endoEqs st.vars (nOf st) (kOf st)).map (Eqn.subs (ord (endoDict st.vars (nOf st) (kOf st)))) := rfl

theorem endoStage_vars (st : PState K) :
    (endoStage ord st).vars = st.vars ++ endoNames st.vars (nOf st) (kOf st) := rfl

theorem shockStage_leads (ho : IsOrder ord) (n : Int) (hn : 0 ≤ n) (h : LeadsAtMost n eqs) :
    LeadsAtMost n (shockStage ord vars shocks eqs).eqs := by
  intro e he s hs hk
  rcases shockFold_syms ord ho _ shocks _ e he s hs with ⟨e', he', hs'⟩ | ⟨m, _, d, hd, rfl⟩ | ⟨m, _, rfl⟩
  · exact h e' he' s hs' hk
  · simp only [vsym, TSym.mk']; omega
  · simp [ssym, TSym.mk'] at hk

/-- The parsed system says what the declared one says, and what the added variables stand for. -/
theorem parse_solves (I : Interp K) (ho : IsOrder ord) (h : parseEqs ord vars shocks eqs = .ok st) (hlead : LeadsAtMost 2 eqs)
    (p : Path K) :
    Solves I st.eqs p ↔ Solves I eqs p ∧
      (∀ s ∈ lagged (lagOf eqs) shocks, ∀ t, p .variable (varOf s) t = p .shock s t) ∧
      LagMeaning (shockStage ord vars shocks eqs).vars (nOf (shockStage ord vars shocks eqs)) p ∧
      LeadMeaning (shockStage ord vars shocks eqs).vars (kOf (shockStage ord vars shocks eqs)) p := by
  obtain ⟨_, rfl⟩ := parseEqs_ok h
  rw [endoStage_eqs, endo_solves I ord ho _ _ _ _ (shockStage_leads ho 2 (by omega) hlead)]
  have : Solves I (shockStage ord vars shocks eqs).eqs p ↔ Solves I eqs p ∧
      ∀ s ∈ lagged (lagOf eqs) shocks, ∀ t, p .variable (varOf s) t = p .shock s t :=
    shockFold_solves I ord ho _ shocks ⟨vars, eqs⟩ p
  rw [this, and_assoc]

/-- If the parsed model gets its matrices, the added names are new and different from each other. -/
theorem added_nodup (I : Interp K) (h : parseEqs ord vars shocks eqs = .ok st) (M : Mats K)
    (hM : getMatrices I true st.vars shocks st.eqs = .ok M) :
    st.vars.Nodup ∨ (lagged (lagOf eqs) shocks = [] ∧
      endoNames (shockStage ord vars shocks eqs).vars (nOf (shockStage ord vars shocks eqs)) (kOf (shockStage ord vars shocks eqs)) = []) := by
  obtain ⟨hlen, rfl⟩ := parseEqs_ok h
  set s1 := shockStage ord vars shocks eqs with hs1
  have hv1 : s1.vars = vars ++ (lagged (lagOf eqs) shocks).map varOf := shockFold_vars ord _ shocks ⟨vars, eqs⟩
  have hl1 : s1.eqs.length = eqs.length + (lagged (lagOf eqs) shocks).length := shockFold_length ord _ shocks ⟨vars, eqs⟩
  have hz1 : sizes s1.eqs = sizes eqs ++ List.replicate (lagged (lagOf eqs) shocks).length 2 := shockFold_sizes ord _ shocks ⟨vars, eqs⟩
  have hz : sizes (endoStage ord s1).eqs = sizes eqs ++ List.replicate
      ((lagged (lagOf eqs) shocks).length + (endoEqs (K := K) s1.vars (nOf s1) (kOf s1)).length) 2 := by
    rw [endoStage_eqs, sizes_subs, sizes_append, hz1, endoEqs_sizes, List.append_assoc, ← List.replicate_add]
  have hl : (endoStage ord s1).eqs.length = eqs.length + ((lagged (lagOf eqs) shocks).length + (endoEqs (K := K) s1.vars (nOf s1) (kOf s1)).length) := by
    have := congrArg List.length hz
    simpa [sizes] using this
  by_cases h0 : (lagged (lagOf eqs) shocks).length + (endoEqs (K := K) s1.vars (nOf s1) (kOf s1)).length = 0
  · right
    refine ⟨List.length_eq_zero_iff.1 (by omega), List.length_eq_zero_iff.1 ?_⟩
    rw [endoNames_length (K := K)]; omega
  · left
    refine getMatrices_nodup I _ shocks _ M hM ?_ ?_
    · rw [hl, endoStage_vars, hv1, List.length_append, List.length_append, endoNames_length (K := K), List.length_map, ← hv1]
      omega
    · have hlt : (endoStage ord s1).eqs.length - 1 < (endoStage ord s1).eqs.length := by omega
      refine ⟨(endoStage ord s1).eqs[(endoStage ord s1).eqs.length - 1], List.getElem?_eq_getElem hlt, ?_⟩
      have hsz : (sizes (endoStage ord s1).eqs)[(endoStage ord s1).eqs.length - 1]? = some 2 := by
        rw [hz, List.getElem?_append_right (by simp [sizes]; omega)]
        rw [List.getElem?_replicate]
        simp only [sizes, List.length_map]
        rw [if_pos (by omega)]
      simp only [sizes, List.getElem?_map, List.getElem?_eq_getElem hlt, Option.map_some, Option.some.injEq] at hsz
      intro hnil
      rw [hnil] at hsz
      cases hsz

/-- The parsed system has the solutions of the declared one. -/
theorem parse_exact (I : Interp K) (ho : IsOrder ord) (h : parseEqs ord vars shocks eqs = .ok st) (M : Mats K)
    (hM : getMatrices I true st.vars shocks st.eqs = .ok M) (hdecl : DeclaredVars vars eqs) (hlead : LeadsAtMost 2 eqs) (y : Path K) :
    Solves I eqs y ↔ ∃ y', AgreeOn vars y y' ∧ Solves I st.eqs y' := by
  have hcongr : ∀ y' : Path K, AgreeOn vars y y' → (Solves I eqs y ↔ Solves I eqs y') := by
    intro y' ha
    refine forall_congr' fun e => forall_congr' fun he => holds_congr I _ _ e ?_
    intro s hs t
    by_cases hk : s.kind = .variable
    · rw [hk]; exact (ha.2 _ (hdecl e he s hs hk) t).symm
    · have hk' : s.kind = .shock := by
        cases h' : s.kind
        · exact absurd h' hk
        · rfl
      rw [hk']; exact (ha.1 _ t).symm
  constructor
  · intro hy
    have hsolve := parse_solves I ho h hlead
    have hnd := added_nodup I h M hM
    obtain ⟨hlen, rfl⟩ := parseEqs_ok h
    set s1 := shockStage ord vars shocks eqs with hs1
    have hv1 : s1.vars = vars ++ (lagged (lagOf eqs) shocks).map varOf := shockFold_vars ord _ shocks ⟨vars, eqs⟩
    rcases hnd with hnd | ⟨h1, h2⟩
    · rw [endoStage_vars] at hnd
      have hnd1 : (vars ++ (lagged (lagOf eqs) shocks).map varOf).Nodup := by
        rw [← hv1]; exact (List.nodup_append.1 hnd).1
      obtain ⟨_, hn2, hn3⟩ := List.nodup_append.1 hnd1
      let y1 := extShock y (lagged (lagOf eqs) shocks)
      have hkeys : ((lagged (lagOf eqs) shocks).map (fun s => (varOf s, y .shock s))).map Prod.fst
          = (lagged (lagOf eqs) shocks).map varOf := by
        rw [List.map_map]; rfl
      have hy1 : ∀ s ∈ lagged (lagOf eqs) shocks, ∀ t, y1 .variable (varOf s) t = y .shock s t := by
        intro s hs t
        exact override_mem _ _ (by rw [hkeys]; exact hn2) _ (y .shock s) (List.mem_map.2 ⟨s, hs, rfl⟩) t
      have hy1v : ∀ v ∈ vars, ∀ t, y1 .variable v t = y .variable v t := by
        intro v hv t
        exact override_not_mem _ _ _ (by rw [hkeys]; intro hm; exact hn3 v hv v hm rfl) t
      obtain ⟨m1, m2, m3⟩ := extEndo_meaning y1 s1.vars (nOf s1) (kOf s1) hnd
      have hin : ∀ w ∈ s1.vars, w ∉ endoNames s1.vars (nOf s1) (kOf s1) :=
        fun w hw hm => (List.nodup_append.1 hnd).2.2 w hw w hm rfl
      have hagree : AgreeOn vars y (extEndo y1 s1.vars (nOf s1) (kOf s1)) := by
        refine ⟨fun s t => rfl, fun v hv t => ?_⟩
        rw [m3 v (hin v (by rw [hv1]; exact List.mem_append_left _ hv)), hy1v v hv]
      refine ⟨extEndo y1 s1.vars (nOf s1) (kOf s1), hagree, (hsolve _).2 ⟨(hcongr _ hagree).1 hy, ?_, m1, m2⟩⟩
      intro s hs t
      rw [m3 (varOf s) (hin _ (by rw [hv1]; exact List.mem_append_right _ (List.mem_map_of_mem hs))), hy1 s hs]
      rfl
    · refine ⟨y, ⟨fun _ _ => rfl, fun _ _ _ => rfl⟩, (hsolve y).2 ⟨hy, by simp [h1], ?_, ?_⟩⟩
      · intro v hv j hj t
        have : lagVar v (j + 1) ∈ endoNames s1.vars (nOf s1) (kOf s1) := (mem_endoNames _ _ _ _).2 ⟨v, hv, Or.inl ⟨j, hj, rfl⟩⟩
        rw [h2] at this; cases this
      · intro v hv j hj t
        have : leadVar v (j + 1) ∈ endoNames s1.vars (nOf s1) (kOf s1) := (mem_endoNames _ _ _ _).2 ⟨v, hv, Or.inr ⟨j, hj, rfl⟩⟩
        rw [h2] at this; cases this
  · rintro ⟨y', ha, hy'⟩
    exact (hcongr y' ha).2 ((parse_solves I ho h hlead y').1 hy').1

/-- Symbols of the model file: no expectation date, declared name. -/
def WellFormed (vars shocks : List String) (eqs : List (Eqn K)) : Prop :=
  ∀ e ∈ eqs, ∀ s ∈ e.syms, s.expDate = 0 ∧ (s.kind = .variable → s.name ∈ vars) ∧ (s.kind = .shock → s.name ∈ shocks)

theorem shockStage_wf (ho : IsOrder ord) (hw : WellFormed vars shocks eqs) :
    WellFormed (shockStage ord vars shocks eqs).vars shocks (shockStage ord vars shocks eqs).eqs := by
  have hv1 : (shockStage ord vars shocks eqs).vars = vars ++ (lagged (lagOf eqs) shocks).map varOf :=
    shockFold_vars ord _ shocks ⟨vars, eqs⟩
  intro e he s hs
  rcases shockFold_syms ord ho _ shocks _ e he s hs with ⟨e', he', hs'⟩ | ⟨m, hm, d, hd, rfl⟩ | ⟨m, hm, rfl⟩
  · obtain ⟨h1, h2, h3⟩ := hw e' he' s hs'
    exact ⟨h1, fun hk => by rw [hv1]; exact List.mem_append_left _ (h2 hk), h3⟩
  · refine ⟨rfl, fun _ => ?_, fun hk => by simp [vsym, TSym.mk'] at hk⟩
    rw [hv1]; exact List.mem_append_right _ (List.mem_map_of_mem hm)
  · refine ⟨rfl, fun hk => by simp [ssym, TSym.mk'] at hk, fun _ => (List.mem_filter.1 hm).1⟩

/-- Lags of shocks are gone after the shock stage. -/
theorem shockFold_replaced (ho : IsOrder ord) (lag : String → Int) (shocks : List String) (st : PState K) :
    ∀ e ∈ (shocks.foldl (shockStep ord lag) st).eqs, ∀ n ∈ lagged lag shocks, ∀ i : Nat, i < (lag n).natAbs →
      ssym n (-((i : Int) + 1)) ∉ e.syms := by
  induction shocks generalizing st with
  | nil => intro e _ n hn; simp [lagged] at hn
  | cons m ss ih =>
    intro e he n hn i hi hs
    rw [List.foldl_cons] at he
    have hn' : n = m ∨ n ∈ lagged lag ss := by
      simp only [lagged, List.mem_filter, List.mem_cons] at hn ⊢
      rcases hn with ⟨rfl | h, h2⟩
      · exact Or.inl rfl
      · exact Or.inr ⟨h, h2⟩
    by_cases hnm : n ∈ lagged lag ss
    · exact ih _ e he n hnm i hi hs
    · rcases hn' with rfl | hn'
      · rcases shockFold_syms ord ho _ ss _ e he _ hs with ⟨e', he', hs'⟩ | ⟨_, _, _, _, h⟩ | ⟨_, _, h⟩
        · unfold shockStep at he'
          rw [if_pos (show (lag n).natAbs > 0 by omega)] at he'
          obtain ⟨e0, he0, rfl⟩ := List.mem_map.1 he'
          have hsep : ∀ kv ∈ ord (shockDict n (lag n).natAbs), ∀ kv' ∈ ord (shockDict n (lag n).natAbs), kv.2 ≠ kv'.1 := by
            intro kv hk kv' hk'
            exact shockDict_sep _ _ _ ((ho _).mem_iff.1 hk) _ ((ho _).mem_iff.1 hk')
          rcases Eqn.syms_subs _ _ hsep _ hs' with ⟨kv, hk, h⟩ | ⟨_, h⟩
          · rw [(ho _).mem_iff, shockDict, List.mem_map] at hk
            obtain ⟨j, _, rfl⟩ := hk
            exact vsym_ne_ssym h.symm
          · refine h (ssym n (-((i : Int) + 1)), vsym (varOf n) (-((i : Int) + 1))) ?_ rfl
            rw [(ho _).mem_iff, shockDict, List.mem_map]
            exact ⟨i, List.mem_range.2 hi, rfl⟩
        · exact vsym_ne_ssym h.symm
        · have := (ssym_inj.1 h).2; omega
      · exact hnm hn'

/-- **C36**, first order: after parsing, variables only occur with dates -1, 0 and 1 and are in the list of variables, and shocks only
occur without lag, for arbitrary lags and leads in the declared equations. -/
theorem C36_first_order (ho : IsOrder ord) (h : parseEqs ord vars shocks eqs = .ok st) (hw : WellFormed vars shocks eqs)
    (hsl : ∀ e ∈ eqs, ∀ s ∈ e.syms, s.kind = .shock → s.date ≤ 0) :
    ∀ e ∈ st.eqs, ∀ s ∈ e.syms,
      (s.kind = .variable → ∃ v ∈ st.vars, s = vsym v (-1) ∨ s = vsym v ∨ s = vsym v 1) ∧
      (s.kind = .shock → ∃ n ∈ shocks, s = ssym n) := by
  obtain ⟨_, rfl⟩ := parseEqs_ok h
  have hw1 := shockStage_wf (ord := ord) (vars := vars) (shocks := shocks) (eqs := eqs) ho hw
  have hshk : ∀ e ∈ (shockStage ord vars shocks eqs).eqs, ∀ s ∈ e.syms, s.kind = .shock → s.date = 0 := by
    intro e he s hs hk
    rcases shockFold_syms ord ho _ shocks _ e he s hs with ⟨e', he', hs'⟩ | ⟨m, hm, d, hd, rfl⟩ | ⟨m, hm, rfl⟩
    · by_contra hd
      have hle := hsl e' he' s hs' hk
      have hmin := minDate_le _ _ (mem_dates eqs e' he' s hs')
      rw [hk] at hmin
      have hm : s.name ∈ lagged (lagOf eqs) shocks := by
        simp only [lagged, List.mem_filter, decide_eq_true_eq]
        refine ⟨(hw e' he' s hs').2.2 hk, ?_⟩
        show 0 < (minDate (dates .shock s.name eqs)).natAbs
        omega
      have hi : (-s.date).toNat - 1 < (lagOf eqs s.name).natAbs := by
        show _ < (minDate (dates .shock s.name eqs)).natAbs
        omega
      refine shockFold_replaced ho (lagOf eqs) shocks ⟨vars, eqs⟩ e he s.name hm ((-s.date).toNat - 1) hi ?_
      have : s = ssym s.name (-((((-s.date).toNat - 1 : Nat) : Int) + 1)) := by
        obtain ⟨k, n, d, x⟩ := s
        simp only [ssym, TSym.mk', TSym.mk.injEq, true_and]
        refine ⟨hk, ?_, (hw e' he' _ hs').1⟩
        simp only at hd hle
        omega
      rw [← this]; exact hs
    · simp [vsym, TSym.mk'] at hk
    · rfl
  set s1 := shockStage ord vars shocks eqs with hs1
  intro e he s hs
  rw [endoStage_eqs] at he
  obtain ⟨e0, he0, rfl⟩ := List.mem_map.1 he
  have hsep : ∀ kv ∈ ord (endoDict s1.vars (nOf s1) (kOf s1)), ∀ kv' ∈ ord (endoDict s1.vars (nOf s1) (kOf s1)), kv.2 ≠ kv'.1 := by
    intro kv hk kv' hk'
    exact endoDict_sep _ _ _ _ ((ho _).mem_iff.1 hk) _ ((ho _).mem_iff.1 hk')
  have hnew : ∀ w ∈ endoNames s1.vars (nOf s1) (kOf s1), w ∈ (endoStage ord s1).vars := by
    intro w hw; rw [endoStage_vars]; exact List.mem_append_right _ hw
  rcases Eqn.syms_subs _ _ hsep s hs with ⟨kv, hk, rfl⟩ | ⟨hs0, hkeys⟩
  · rw [(ho _).mem_iff, mem_endoDict] at hk
    obtain ⟨v, hv, ⟨j, hj, rfl⟩ | ⟨j, hj, rfl⟩⟩ := hk
    · exact ⟨fun _ => ⟨lagVar v (j + 1), hnew _ ((mem_endoNames _ _ _ _).2 ⟨v, hv, Or.inl ⟨j, hj, rfl⟩⟩), Or.inl rfl⟩,
        fun hk => by simp [vsym, TSym.mk'] at hk⟩
    · exact ⟨fun _ => ⟨leadVar v (j + 1), hnew _ ((mem_endoNames _ _ _ _).2 ⟨v, hv, Or.inr ⟨j, hj, rfl⟩⟩), Or.inr (Or.inr rfl)⟩,
        fun hk => by simp [vsym, TSym.mk'] at hk⟩
  · rcases List.mem_append.1 he0 with he0 | he0
    · refine ⟨fun hk => ?_, fun hk => ?_⟩
      · have hname := (hw1 e0 he0 s hs0).2.1 hk
        have hx := (hw1 e0 he0 s hs0).1
        have hmin := minDate_le _ _ (mem_dates s1.eqs e0 he0 s hs0)
        have hmax := le_maxDate _ _ (mem_dates s1.eqs e0 he0 s hs0)
        rw [hk] at hmin hmax
        have hform : ∀ d : Int, s.date = d → s = vsym s.name d := by
          intro d hd
          obtain ⟨k, n, d', x⟩ := s
          simp only [vsym, TSym.mk', TSym.mk.injEq, true_and]
          exact ⟨hk, hd, hx⟩
        have hlo : -1 ≤ s.date := by
          by_contra hlt
          refine hkeys (vsym s.name (-((((-s.date).toNat - 2 : Nat) : Int) + 2)), vsym (lagVar s.name ((-s.date).toNat - 2 + 1)) (-1)) ?_ ?_
          · rw [(ho _).mem_iff, mem_endoDict]
            refine ⟨s.name, hname, Or.inl ⟨(-s.date).toNat - 2, ?_, rfl⟩⟩
            show _ < (minDate (dates .variable s.name s1.eqs)).natAbs
            omega
          · exact hform _ (by omega)
        have hhi : s.date ≤ 1 := by
          by_contra hlt
          refine hkeys (vsym s.name ((((s.date).toNat - 2 : Nat) : Int) + 2), vsym (leadVar s.name ((s.date).toNat - 2 + 1)) 1) ?_ ?_
          · rw [(ho _).mem_iff, mem_endoDict]
            refine ⟨s.name, hname, Or.inr ⟨(s.date).toNat - 2, ?_, rfl⟩⟩
            show _ < (maxDate (dates .variable s.name s1.eqs)).natAbs
            omega
          · exact hform _ (by omega)
        refine ⟨s.name, by rw [endoStage_vars]; exact List.mem_append_left _ hname, ?_⟩
        have : s.date = -1 ∨ s.date = 0 ∨ s.date = 1 := by omega
        rcases this with hd | hd | hd
        · exact Or.inl (hform _ hd)
        · exact Or.inr (Or.inl (hform _ hd))
        · exact Or.inr (Or.inr (hform _ hd))
      · refine ⟨s.name, (hw1 e0 he0 s hs0).2.2 hk, ?_⟩
        have hd := hshk e0 he0 s hs0 hk
        have hx := (hw1 e0 he0 s hs0).1
        obtain ⟨k, n, d', x⟩ := s
        simp only [ssym, TSym.mk', TSym.mk.injEq, true_and]
        exact ⟨hk, hd, hx⟩
    · simp only [endoEqs, lagEqs, leadEqs, List.mem_flatMap, List.mem_append, List.mem_map, List.mem_range] at he0
      obtain ⟨v, hv, ⟨j, hj, rfl⟩ | ⟨j, hj, rfl⟩⟩ := he0
      · simp only [Eqn.syms, Expr.syms, List.mem_append, List.mem_singleton] at hs0
        rcases hs0 with rfl | rfl
        · exact ⟨fun _ => ⟨_, hnew _ ((mem_endoNames _ _ _ _).2 ⟨v, hv, Or.inl ⟨j, by omega, rfl⟩⟩), Or.inr (Or.inl rfl)⟩,
            fun hk => by simp [vsym, TSym.mk'] at hk⟩
        · unfold lagRhs
          split
          · exact ⟨fun _ => ⟨v, by rw [endoStage_vars]; exact List.mem_append_left _ hv, Or.inl rfl⟩,
              fun hk => by simp [vsym, TSym.mk'] at hk⟩
          · rename_i hj1
            refine ⟨fun _ => ⟨lagVar v (j + 1 - 1), hnew _ ((mem_endoNames _ _ _ _).2 ⟨v, hv, Or.inl ⟨j - 1, by omega, ?_⟩⟩), Or.inl rfl⟩,
              fun hk => by simp [vsym, TSym.mk'] at hk⟩
            rw [show j - 1 + 1 = j + 1 - 1 by omega]
      · simp only [Eqn.syms, Expr.syms, List.mem_append, List.mem_singleton] at hs0
        rcases hs0 with rfl | rfl
        · exact ⟨fun _ => ⟨_, hnew _ ((mem_endoNames _ _ _ _).2 ⟨v, hv, Or.inr ⟨j, by omega, rfl⟩⟩), Or.inr (Or.inl rfl)⟩,
            fun hk => by simp [vsym, TSym.mk'] at hk⟩
        · exact ⟨fun _ => ⟨v, by rw [endoStage_vars]; exact List.mem_append_left _ hv, Or.inr (Or.inr rfl)⟩,
            fun hk => by simp [vsym, TSym.mk'] at hk⟩

/-- **C36**, acceptance: a parsed system without leads of shocks and without clashes of names gets its matrices. -/
theorem C36_accepted (I : Interp K) (ho : IsOrder ord) (h : parseEqs ord vars shocks eqs = .ok st) (hw : WellFormed vars shocks eqs)
    (hsl : ∀ e ∈ eqs, ∀ s ∈ e.syms, s.kind = .shock → s.date ≤ 0) (hnd : st.vars.Nodup) :
    ∃ M, getMatrices I true st.vars shocks st.eqs = .ok M := by
  have hfo := C36_first_order ho h hw hsl
  have hlen : st.eqs.length + 1 = st.vars.length := by
    obtain ⟨hlen, rfl⟩ := parseEqs_ok h
    have hv1 : (shockStage ord vars shocks eqs).vars = vars ++ (lagged (lagOf eqs) shocks).map varOf :=
      shockFold_vars ord _ shocks ⟨vars, eqs⟩
    have hl1 : (shockStage ord vars shocks eqs).eqs.length = eqs.length + (lagged (lagOf eqs) shocks).length :=
      shockFold_length ord _ shocks ⟨vars, eqs⟩
    rw [endoStage_eqs, endoStage_vars, List.length_map, List.length_append, List.length_append, hl1, endoNames_length (K := K)]
    have := congrArg List.length hv1
    simp only [List.length_append, List.length_map] at this
    omega
  have hu : (unique st.vars).length = st.vars.length := by rw [unique_length, List.dedup_eq_self.2 hnd]
  have hc : checkRows ((unique st.vars).length - 1) (unique st.vars) shocks 0 st.eqs = .ok () := by
    rw [checkRows_ok]
    intro j e hj
    have he : e ∈ st.eqs := List.mem_of_getElem? hj
    have hjl : j < st.eqs.length := (List.getElem?_eq_some_iff.1 hj).1
    unfold rowCheck
    have h1 : ¬ (e.syms.any (fun s =>
        s.kind = .variable ∧ 0 < s.date ∧ s ∉ (unique st.vars).map (fun n => vsym n 1) ∨
        s.kind = .variable ∧ s.date = 0 ∧ s ∉ (unique st.vars).map (fun n => vsym n 0) ∨
        s.kind = .variable ∧ s.date < 0 ∧ s ∉ (unique st.vars).map (fun n => vsym n (-1)) ∨
        s.kind = .shock ∧ s ∉ shocks.map (fun n => ssym n))) = true := by
      rw [List.any_eq_true]
      rintro ⟨s, hs, hbad⟩
      simp only [decide_eq_true_eq, List.mem_map, mem_unique] at hbad
      obtain ⟨hv, hk⟩ := hfo e he s hs
      rcases hbad with ⟨hkind, hd, hn⟩ | ⟨hkind, hd, hn⟩ | ⟨hkind, hd, hn⟩ | ⟨hkind, hn⟩
      · obtain ⟨v, hvm, rfl | rfl | rfl⟩ := hv hkind
        · simp [vsym, TSym.mk'] at hd
        · simp [vsym, TSym.mk'] at hd
        · exact hn ⟨v, hvm, rfl⟩
      · obtain ⟨v, hvm, rfl | rfl | rfl⟩ := hv hkind
        · simp [vsym, TSym.mk'] at hd
        · exact hn ⟨v, hvm, rfl⟩
        · simp [vsym, TSym.mk'] at hd
      · obtain ⟨v, hvm, rfl | rfl | rfl⟩ := hv hkind
        · exact hn ⟨v, hvm, rfl⟩
        · simp [vsym, TSym.mk'] at hd
        · simp [vsym, TSym.mk'] at hd
      · obtain ⟨m, hm, rfl⟩ := hk hkind
        exact hn ⟨m, hm, rfl⟩
    rw [if_neg h1, if_neg]
    rintro ⟨_, hle⟩
    omega
  unfold getMatrices
  simp only [if_true, hc]
  exact ⟨_, rfl⟩

/-- **C36**: if the parser accepts the system, a path solves the declared equations iff some extension of it to the added variables solves
the parsed ones; lags may be arbitrarily long (leads beyond two periods: see C37). -/
theorem C36_lags_exact (I : Interp K) (ho : IsOrder ord) (h : parseEqs ord vars shocks eqs = .ok st) (M : Mats K)
    (hM : getMatrices I true st.vars shocks st.eqs = .ok M) (hdecl : DeclaredVars vars eqs) (hlead : LeadsAtMost 2 eqs) (y : Path K) :
    Solves I eqs y ↔ ∃ y', AgreeOn vars y y' ∧ Solves I st.eqs y' :=
  parse_exact I ho h M hM hdecl hlead y

/-- Variables survive the shock stage. -/
theorem shockFold_keeps (ho : IsOrder ord) (lag : String → Int) (shocks : List String) (st : PState K) (e : Eqn K) (he : e ∈ st.eqs)
    (s : TSym) (hs : s ∈ e.syms) (hk : s.kind = .variable) :
    ∃ e' ∈ (shocks.foldl (shockStep ord lag) st).eqs, s ∈ e'.syms := by
  induction shocks generalizing st e with
  | nil => exact ⟨e, he, hs⟩
  | cons m ss ih =>
    rw [List.foldl_cons]
    by_cases hl : (lag m).natAbs > 0
    · refine ih _ (e.subs (ord (shockDict m (lag m).natAbs))) ?_ ?_
      · simp only [shockStep, if_pos hl]
        exact List.mem_map_of_mem (List.mem_append_left _ he)
      · refine Eqn.mem_subs _ _ _ hs ?_
        intro kv hkv heq
        rw [(ho _).mem_iff, shockDict, List.mem_map] at hkv
        obtain ⟨i, _, rfl⟩ := hkv
        rw [heq] at hk
        simp [ssym, TSym.mk'] at hk
    · refine ih _ e ?_ hs
      simp only [shockStep, if_neg hl]; exact he

/-- **C36**, the added variables: if lag `i + 2` of a variable occurs in the declared equations, the variable for it exists, and in every
solution of the parsed system it is lag `i + 1` of the variable. -/
theorem C36_lag_variables (I : Interp K) (ho : IsOrder ord) (h : parseEqs ord vars shocks eqs = .ok st) (hlead : LeadsAtMost 2 eqs)
    (e : Eqn K) (he : e ∈ eqs) (v : String) (hv : v ∈ vars) (i : Nat) (hi : vsym v (-((i : Int) + 2)) ∈ e.syms) :
    lagVar v (i + 1) ∈ st.vars ∧
      ∀ y, Solves I st.eqs y → ∀ t, y .variable (lagVar v (i + 1)) t = y .variable v (t - ((i : Int) + 1)) := by
  have hv1 : (shockStage ord vars shocks eqs).vars = vars ++ (lagged (lagOf eqs) shocks).map varOf :=
    shockFold_vars ord _ shocks ⟨vars, eqs⟩
  obtain ⟨e', he', hs'⟩ := shockFold_keeps ho (lagOf eqs) shocks ⟨vars, eqs⟩ e he _ hi rfl
  have hmin := minDate_le _ _ (mem_dates (shockStage ord vars shocks eqs).eqs e' he' _ hs')
  simp only [vsym, TSym.mk'] at hmin
  have hn : i + 1 < nOf (shockStage ord vars shocks eqs) v := by
    show _ < (minDate (dates .variable v (shockStage ord vars shocks eqs).eqs)).natAbs
    omega
  have hvm : v ∈ (shockStage ord vars shocks eqs).vars := by rw [hv1]; exact List.mem_append_left _ hv
  refine ⟨?_, fun y hy => ?_⟩
  · obtain ⟨_, rfl⟩ := parseEqs_ok h
    rw [endoStage_vars]
    exact List.mem_append_right _ ((mem_endoNames _ _ _ _).2 ⟨v, hvm, Or.inl ⟨i, hn, rfl⟩⟩)
  · exact ((parse_solves I ho h hlead y).1 hy).2.2.1 v hvm i hn

/-- **C37** (holds for leads of at most two periods): a path solves the declared equations iff some extension of it to the added variables
solves the parsed ones. -/
theorem C37_leads_exact_partial (I : Interp K) (ho : IsOrder ord) (h : parseEqs ord vars shocks eqs = .ok st) (M : Mats K)
    (hM : getMatrices I true st.vars shocks st.eqs = .ok M) (hdecl : DeclaredVars vars eqs) (hlead : LeadsAtMost 2 eqs) (y : Path K) :
    Solves I eqs y ↔ ∃ y', AgreeOn vars y y' ∧ Solves I st.eqs y' :=
  parse_exact I ho h M hM hdecl hlead y

/-- **C38**: the same for lagged shocks, and if lag `i + 1` of a shock occurs in the declared equations, the variable for it exists and equals
the shock in every solution of the parsed system. -/
theorem C38_lagged_shocks_exact (I : Interp K) (ho : IsOrder ord) (h : parseEqs ord vars shocks eqs = .ok st)
    (hdecl : DeclaredVars vars eqs) (hlead : LeadsAtMost 2 eqs) :
    (∀ M, getMatrices I true st.vars shocks st.eqs = .ok M →
      ∀ y : Path K, Solves I eqs y ↔ ∃ y', AgreeOn vars y y' ∧ Solves I st.eqs y') ∧
    ∀ e ∈ eqs, ∀ s ∈ shocks, ∀ i : Nat, ssym s (-((i : Int) + 1)) ∈ e.syms →
      varOf s ∈ st.vars ∧ ∀ y, Solves I st.eqs y → ∀ t, y .variable (varOf s) t = y .shock s t := by
  refine ⟨fun M hM y => parse_exact I ho h M hM hdecl hlead y, fun e he s hs i hi => ?_⟩
  have hmin := minDate_le _ _ (mem_dates eqs e he _ hi)
  simp only [ssym, TSym.mk'] at hmin
  have hl : s ∈ lagged (lagOf eqs) shocks := by
    simp only [lagged, List.mem_filter, decide_eq_true_eq]
    refine ⟨hs, ?_⟩
    show 0 < (minDate (dates .shock s eqs)).natAbs
    omega
  refine ⟨?_, fun y hy => ((parse_solves I ho h hlead y).1 hy).2.1 s hl⟩
  have hv1 : (shockStage ord vars shocks eqs).vars = vars ++ (lagged (lagOf eqs) shocks).map varOf :=
    shockFold_vars ord _ shocks ⟨vars, eqs⟩
  obtain ⟨_, rfl⟩ := parseEqs_ok h
  rw [endoStage_vars, hv1]
  exact List.mem_append_left _ (List.mem_append_right _ (List.mem_map_of_mem hl))

end

/-! ### A model with long leads and lags -/

namespace ParseEx

/-- `y = x(-3) + e(-2) + x(2)` for the variables `x`, `y` and the shock `e` (`x` is the constrained variable). -/
def eqs : List (Eqn Rat) :=
  [⟨.sym (vsym "y"), .add (.add (.sym (vsym "x" (-3))) (.sym (ssym "e" (-2)))) (.sym (vsym "x" 2))⟩]

def parsed : PState Rat :=
  ⟨["x", "y", "e_VAR", "x_LAG1", "x_LAG2", "x_LEAD1", "e_VAR_LAG1"],
    [⟨.sym (vsym "y"), .add (.add (.sym (vsym "x_LAG2" (-1))) (.sym (vsym "e_VAR_LAG1" (-1)))) (.sym (vsym "x_LEAD1" 1))⟩,
     ⟨.sym (vsym "e_VAR"), .sym (ssym "e")⟩,
     ⟨.sym (vsym "x_LAG1"), .sym (vsym "x" (-1))⟩,
     ⟨.sym (vsym "x_LAG2"), .sym (vsym "x_LAG1" (-1))⟩,
     ⟨.sym (vsym "x_LEAD1"), .sym (vsym "x" 1)⟩,
     ⟨.sym (vsym "e_VAR_LAG1"), .sym (vsym "e_VAR" (-1))⟩]⟩

theorem parse_eq : parseEqs id ["x", "y"] ["e"] eqs = .ok parsed := by decide +kernel

theorem wf : WellFormed ["x", "y"] ["e"] eqs := by unfold WellFormed; decide +kernel

/-- The hypotheses of C36, C37 and C38 hold for this model. -/
example (I : Interp Rat) (y : Path Rat) : Solves I eqs y ↔ ∃ y', AgreeOn ["x", "y"] y y' ∧ Solves I parsed.eqs y' := by
  obtain ⟨M, hM⟩ := C36_accepted I (ord := id) (fun d => List.Perm.refl d) parse_eq wf (by decide +kernel) (by decide +kernel)
  exact C36_lags_exact I (fun d => List.Perm.refl d) parse_eq M hM (by unfold DeclaredVars; decide +kernel)
    (by unfold LeadsAtMost; decide +kernel) y

/-- `y = x + x(3)`. -/
def eqs3 : List (Eqn Rat) := [⟨.sym (vsym "y"), .add (.sym (vsym "x")) (.sym (vsym "x" 3))⟩]

def parsed3 : PState Rat :=
  ⟨["x", "y", "x_LEAD1", "x_LEAD2"],
    [⟨.sym (vsym "y"), .add (.sym (vsym "x")) (.sym (vsym "x_LEAD2" 1))⟩,
     ⟨.sym (vsym "x_LEAD1"), .sym (vsym "x" 1)⟩,
     ⟨.sym (vsym "x_LEAD2"), .sym (vsym "x" 1)⟩]⟩

theorem parse3_eq : parseEqs id ["x", "y"] [] eqs3 = .ok parsed3 := by decide +kernel

/-- `x = t`, `y = t + (t + 3)`. -/
def path3 : Path Rat
  | .variable, "x", t => t
  | .variable, "y", t => t + (t + 3)
  | _, _, _ => 0

end ParseEx

/-- **C37** refuted: `y = x + x(3)` is accepted, but the parsed system says `y = x + x(2)`: a solution of the declared equation that has no
extension which solves the parsed system. -/
theorem C37_leads_exact_refuted : ∃ (vars shocks : List String) (eqs : List (Eqn Rat)) (st : PState Rat) (I : Interp Rat) (M : Mats Rat)
    (y : Path Rat),
    parseEqs id vars shocks eqs = .ok st ∧ getMatrices I true st.vars shocks st.eqs = .ok M ∧ DeclaredVars vars eqs ∧
      Solves I eqs y ∧ ¬ ∃ y', AgreeOn vars y y' ∧ Solves I st.eqs y' := by
  let I : Interp Rat := ⟨fun _ => 0, fun _ _ _ => 0⟩
  obtain ⟨M, hM⟩ := C36_accepted I (ord := id) (fun d => List.Perm.refl d) ParseEx.parse3_eq
    (by unfold WellFormed; decide +kernel) (by decide +kernel) (by decide +kernel)
  refine ⟨["x", "y"], [], ParseEx.eqs3, ParseEx.parsed3, I, M, ParseEx.path3, ParseEx.parse3_eq, hM,
    by unfold DeclaredVars; decide +kernel, ?_, ?_⟩
  · intro e he t
    simp only [ParseEx.eqs3, List.mem_singleton] at he
    subst he
    simp only [Expr.eval, Path.at, vsym, TSym.mk', ParseEx.path3, add_zero]
    push_cast; ring
  · rintro ⟨y', ha, hy⟩
    have h1 := hy _ (List.mem_cons_self ..) 0
    have h2 := hy _ (List.mem_cons_of_mem _ (List.mem_cons_of_mem _ (List.mem_cons_self ..))) 1
    simp only [Expr.eval, Path.at, vsym, TSym.mk', add_zero, zero_add] at h1 h2
    rw [h2, ha.2 "x" (by decide), ha.2 "x" (by decide), ha.2 "y" (by decide)] at h1
    simp only [ParseEx.path3] at h1
    norm_num at h1

end Pydsge
