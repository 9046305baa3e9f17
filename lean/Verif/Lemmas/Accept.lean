import Std.Data.String.ToNat
import Verif.Props.Parser

/-!
# Names and depths of the variables that the parser adds
-/

set_option autoImplicit false
set_option linter.unusedSectionVars false
set_option linter.unusedSimpArgs false

namespace Pydsge
open Parser

/-! ## Names -/

theorem digits_tail {x y d e : List Char} (hd : ∀ c ∈ d, c.isDigit = true) (he : ∀ c ∈ e, c.isDigit = true)
    (hx : ∃ a l, x = l ++ [a] ∧ a.isDigit = false) (hy : ∃ a l, y = l ++ [a] ∧ a.isDigit = false) (h : x ++ d = y ++ e) : x = y ∧ d = e := by
  obtain ⟨a, l, rfl, ha⟩ := hx
  obtain ⟨b, m, rfl, hb⟩ := hy
  rcases List.append_eq_append_iff.1 h with ⟨w, h1, h2⟩ | ⟨w, h1, h2⟩
  · rcases List.eq_nil_or_concat w with rfl | ⟨w', c, rfl⟩
    · rw [List.append_nil] at h1
      exact ⟨h1.symm, by simpa using h2⟩
    · rw [List.concat_eq_append, ← List.append_assoc] at h1
      exfalso
      have : b = c := by
        have := congrArg List.getLast? h1
        rw [List.getLast?_concat, List.getLast?_concat] at this
        exact Option.some.inj this
      have hc := hd c (by rw [h2]; simp)
      rw [← this, hb] at hc; cases hc
  · rcases List.eq_nil_or_concat w with rfl | ⟨w', c, rfl⟩
    · rw [List.append_nil] at h1
      exact ⟨h1, by simpa using h2.symm⟩
    · rw [List.concat_eq_append, ← List.append_assoc] at h1
      exfalso
      have : a = c := by
        have := congrArg List.getLast? h1
        rw [List.getLast?_concat, List.getLast?_concat] at this
        exact Option.some.inj this
      have hc := he c (by rw [h2]; simp)
      rw [← this, ha] at hc; cases hc

theorem repr_digits (i : Nat) : ∀ c ∈ (toString i).toList, c.isDigit = true := by
  intro c hc
  have : (toString i).toList = Nat.toDigits 10 i := Nat.toList_repr
  rw [this] at hc
  exact Nat.isDigit_of_mem_toDigits (by decide) (by decide) hc

theorem lagVar_toList (v : String) (i : Nat) : (lagVar v i).toList = (v.toList ++ ['_', 'L', 'A', 'G']) ++ (toString i).toList := by
  simp only [lagVar, String.toList_append]; rfl

theorem leadVar_toList (v : String) (i : Nat) : (leadVar v i).toList = (v.toList ++ ['_', 'L', 'E', 'A', 'D']) ++ (toString i).toList := by
  simp only [leadVar, String.toList_append]; rfl

theorem varOf_toList (s : String) : (varOf s).toList = s.toList ++ ['_', 'V', 'A', 'R'] := by
  simp only [varOf, String.toList_append]; rfl

theorem varOf_inj {s t : String} (h : varOf s = varOf t) : s = t := by
  have := congrArg String.toList h
  rw [varOf_toList, varOf_toList] at this
  exact String.toList_inj.1 (List.append_cancel_right this)

theorem ends_lag (l : List Char) : ∃ a m, l ++ ['_', 'L', 'A', 'G'] = m ++ [a] ∧ a.isDigit = false :=
  ⟨'G', l ++ ['_', 'L', 'A'], by simp, by decide⟩

theorem ends_lead (l : List Char) : ∃ a m, l ++ ['_', 'L', 'E', 'A', 'D'] = m ++ [a] ∧ a.isDigit = false :=
  ⟨'D', l ++ ['_', 'L', 'E', 'A'], by simp, by decide⟩

theorem toString_inj {i j : Nat} (h : (toString i).toList = (toString j).toList) : i = j :=
  Nat.repr_injective (String.toList_inj.1 h)

theorem lagVar_inj {v w : String} {i j : Nat} (h : lagVar v i = lagVar w j) : v = w ∧ i = j := by
  have := congrArg String.toList h
  rw [lagVar_toList, lagVar_toList] at this
  obtain ⟨h1, h2⟩ := digits_tail (repr_digits i) (repr_digits j) (ends_lag _) (ends_lag _) this
  exact ⟨String.toList_inj.1 (List.append_cancel_right h1), toString_inj h2⟩

theorem leadVar_inj {v w : String} {i j : Nat} (h : leadVar v i = leadVar w j) : v = w ∧ i = j := by
  have := congrArg String.toList h
  rw [leadVar_toList, leadVar_toList] at this
  obtain ⟨h1, h2⟩ := digits_tail (repr_digits i) (repr_digits j) (ends_lead _) (ends_lead _) this
  exact ⟨String.toList_inj.1 (List.append_cancel_right h1), toString_inj h2⟩

theorem lagVar_ne_leadVar {v w : String} {i j : Nat} : lagVar v i ≠ leadVar w j := by
  intro h
  have := congrArg String.toList h
  rw [lagVar_toList, leadVar_toList] at this
  obtain ⟨h1, _⟩ := digits_tail (repr_digits i) (repr_digits j) (ends_lag _) (ends_lead _) this
  have := congrArg List.getLast? h1
  simp at this

theorem digit_end {l d : List Char} (hd : ∀ c ∈ d, c.isDigit = true) (hn : d ≠ []) {x : List Char} {a : Char} (ha : a.isDigit = false)
    (h : l ++ d = x ++ [a]) : False := by
  obtain ⟨d', c, rfl⟩ := (List.eq_nil_or_concat d).resolve_left hn
  rw [List.concat_eq_append, ← List.append_assoc] at h
  have : c = a := by
    have := congrArg List.getLast? h
    simpa using this
  have hc := hd c (by simp)
  rw [this, ha] at hc; cases hc

theorem repr_ne_nil (i : Nat) : (toString i).toList ≠ [] := by
  have : (toString i).toList = Nat.toDigits 10 i := Nat.toList_repr
  rw [this]
  exact Nat.toDigits_ne_nil

theorem lagVar_ne_varOf {v s : String} {i : Nat} : lagVar v i ≠ varOf s := by
  intro h
  have := congrArg String.toList h
  rw [lagVar_toList, varOf_toList] at this
  exact digit_end (repr_digits i) (repr_ne_nil i) (x := s.toList ++ ['_', 'V', 'A']) (a := 'R') (by decide) (by rw [this]; simp)

theorem leadVar_ne_varOf {v s : String} {i : Nat} : leadVar v i ≠ varOf s := by
  intro h
  have := congrArg String.toList h
  rw [leadVar_toList, varOf_toList] at this
  exact digit_end (repr_digits i) (repr_ne_nil i) (x := s.toList ++ ['_', 'V', 'A']) (a := 'R') (by decide) (by rw [this]; simp)

/-- Names that are added for different variables, or for different dates, are different. -/
theorem endoNames_nodup {vars : List String} (n k : String → Nat) (h : vars.Nodup) : (endoNames vars n k).Nodup := by
  unfold endoNames
  rw [List.nodup_flatMap]
  constructor
  · intro v _
    rw [List.nodup_append]
    refine ⟨?_, ?_, ?_⟩
    · exact List.nodup_range.map_on fun a _ b _ hab => by have := (lagVar_inj hab).2; omega
    · exact List.nodup_range.map_on fun a _ b _ hab => by have := (leadVar_inj hab).2; omega
    · intro a ha b hb hab
      obtain ⟨i, _, rfl⟩ := List.mem_map.1 ha
      obtain ⟨j, _, rfl⟩ := List.mem_map.1 hb
      exact lagVar_ne_leadVar hab
  · refine h.imp ?_
    intro v w hvw x hx hy
    simp only [lagNames, leadNames, List.mem_append, List.mem_map] at hx hy
    rcases hx with ⟨i, _, rfl⟩ | ⟨i, _, rfl⟩ <;> rcases hy with ⟨j, _, hj⟩ | ⟨j, _, hj⟩
    · exact hvw (lagVar_inj hj).1.symm
    · exact lagVar_ne_leadVar hj.symm
    · exact lagVar_ne_leadVar hj
    · exact hvw (leadVar_inj hj).1.symm

/-! ## Depths -/

theorem minDate_mem (l : List Int) (h : l ≠ []) : minDate l ∈ l := by
  have key : ∀ (l : List Int) (a : Int), l.foldl min a = a ∨ l.foldl min a ∈ l := by
    intro l
    induction l with
    | nil => intro a; exact Or.inl rfl
    | cons b l ih =>
      intro a
      rw [List.foldl_cons]
      rcases ih (min a b) with h | h
      · rw [h]
        rcases min_choice a b with h' | h'
        · exact Or.inl h'
        · rw [h']; exact Or.inr (List.mem_cons_self ..)
      · exact Or.inr (List.mem_cons_of_mem _ h)
  cases l with
  | nil => exact absurd rfl h
  | cons a l =>
    unfold minDate
    rcases key (a :: l) a with h | h
    · simp only [List.headD_cons]; rw [h]; exact List.mem_cons_self ..
    · exact h

theorem maxDate_mem (l : List Int) (h : l ≠ []) : maxDate l ∈ l := by
  have key : ∀ (l : List Int) (a : Int), l.foldl max a = a ∨ l.foldl max a ∈ l := by
    intro l
    induction l with
    | nil => intro a; exact Or.inl rfl
    | cons b l ih =>
      intro a
      rw [List.foldl_cons]
      rcases ih (max a b) with h | h
      · rw [h]
        rcases max_choice a b with h' | h'
        · exact Or.inl h'
        · rw [h']; exact Or.inr (List.mem_cons_self ..)
      · exact Or.inr (List.mem_cons_of_mem _ h)
  cases l with
  | nil => exact absurd rfl h
  | cons a l =>
    unfold maxDate
    rcases key (a :: l) a with h | h
    · simp only [List.headD_cons]; rw [h]; exact List.mem_cons_self ..
    · exact h

theorem minDate_abs (l : List Int) (h : l ≠ []) (j : Nat) (hj : 0 < j) :
    j ≤ (minDate l).natAbs ↔ (∃ d ∈ l, d ≤ -(j : Int)) ∨ ∀ d ∈ l, (j : Int) ≤ d := by
  have hm := minDate_mem l h
  constructor
  · intro hle
    rcases le_total 0 (minDate l) with h0 | h0
    · right
      intro d hd
      have := minDate_le l d hd
      omega
    · exact Or.inl ⟨_, hm, by omega⟩
  · rintro (⟨d, hd, hdj⟩ | hall)
    · have := minDate_le l d hd; omega
    · have := hall _ hm; omega

theorem maxDate_abs (l : List Int) (h : l ≠ []) (j : Nat) (hj : 0 < j) :
    j ≤ (maxDate l).natAbs ↔ (∃ d ∈ l, (j : Int) ≤ d) ∨ ∀ d ∈ l, d ≤ -(j : Int) := by
  have hm := maxDate_mem l h
  constructor
  · intro hle
    rcases le_total 0 (maxDate l) with h0 | h0
    · exact Or.inl ⟨_, hm, by omega⟩
    · right
      intro d hd
      have := le_maxDate l d hd
      omega
  · rintro (⟨d, hd, hdj⟩ | hall)
    · have := le_maxDate l d hd; omega
    · have := hall _ hm; omega

section
variable {K : Type}

theorem mem_dates_iff {k : Kind} {n : String} {eqs : List (Eqn K)} {d : Int} :
    d ∈ dates k n eqs ↔ ∃ e ∈ eqs, ∃ s ∈ e.syms, s.kind = k ∧ s.name = n ∧ s.date = d := by
  simp only [dates, List.mem_map, List.mem_filter, List.mem_flatMap, decide_eq_true_eq]
  constructor
  · rintro ⟨s, ⟨⟨e, he, hs⟩, hk, hn⟩, hd⟩; exact ⟨e, he, s, hs, hk, hn, hd⟩
  · rintro ⟨e, he, s, hs, hk, hn, hd⟩; exact ⟨s, ⟨⟨e, he, hs⟩, hk, hn⟩, hd⟩

/-! ## What becomes of the symbols -/

theorem Expr.subs1_hit (k v : TSym) (e : Expr K) (hs : k ∈ e.syms) : v ∈ (e.subs1 k v).syms := by
  induction e with
  | num c => cases hs
  | par c => cases hs
  | sym t =>
    simp only [Expr.syms, List.mem_singleton] at hs
    subst hs
    simp [Expr.subs1, Expr.syms]
  | neg a ih => exact ih hs
  | pow a n ih => exact ih hs
  | _ =>
    rename_i iha ihb
    simp only [Expr.syms, Expr.subs1, List.mem_append] at hs ⊢
    rcases hs with hs | hs
    · exact Or.inl (iha hs)
    · exact Or.inr (ihb hs)

/-- A symbol that is replaced leaves its substitute. -/
theorem Expr.subs_hit (d : List (TSym × TSym)) (e : Expr K) (hd : ∀ kv ∈ d, ∀ kv' ∈ d, kv.2 ≠ kv'.1)
    (hf : ∀ kv ∈ d, ∀ kv' ∈ d, kv.1 = kv'.1 → kv.2 = kv'.2) (kv : TSym × TSym) (hk : kv ∈ d) (hs : kv.1 ∈ e.syms) :
    kv.2 ∈ (e.subs d).syms := by
  induction d generalizing e with
  | nil => cases hk
  | cons a d ih =>
    rw [Expr.subs_cons]
    by_cases h : kv.1 = a.1
    · have hv : kv.2 = a.2 := hf kv hk a (List.mem_cons_self ..) h
      have := Expr.subs1_hit a.1 a.2 e (h ▸ hs)
      rw [hv]
      refine mem_subs d _ _ this ?_
      intro kv' hk' heq
      exact hd a (List.mem_cons_self ..) kv' (List.mem_cons_of_mem _ hk') heq
    · have hk' : kv ∈ d := by
        rcases List.mem_cons.1 hk with rfl | hk
        · exact absurd rfl h
        · exact hk
      exact ih _ (fun a ha b hb => hd a (List.mem_cons_of_mem _ ha) b (List.mem_cons_of_mem _ hb))
        (fun a ha b hb => hf a (List.mem_cons_of_mem _ ha) b (List.mem_cons_of_mem _ hb)) hk' (mem_subs1 _ _ _ _ hs h)

theorem Eqn.subs_hit (d : List (TSym × TSym)) (e : Eqn K) (hd : ∀ kv ∈ d, ∀ kv' ∈ d, kv.2 ≠ kv'.1)
    (hf : ∀ kv ∈ d, ∀ kv' ∈ d, kv.1 = kv'.1 → kv.2 = kv'.2) (kv : TSym × TSym) (hk : kv ∈ d) (hs : kv.1 ∈ e.syms) :
    kv.2 ∈ (e.subs d).syms := by
  simp only [Eqn.syms, Eqn.subs, List.mem_append] at hs ⊢
  rcases hs with hs | hs
  · exact Or.inl (Expr.subs_hit d _ hd hf kv hk hs)
  · exact Or.inr (Expr.subs_hit d _ hd hf kv hk hs)

end

section
variable {K : Type} [Field K] {ord : List (TSym × TSym) → List (TSym × TSym)}

/-- A lagged shock leaves its variable with the same lag. -/
theorem shockFold_hit (ho : IsOrder ord) (lag : String → Int) (shocks : List String) (st : PState K) (n : String) (hn : n ∈ lagged lag shocks)
    (i : Nat) (hi : i < (lag n).natAbs) (h : ∃ e ∈ st.eqs, ssym n (-((i : Int) + 1)) ∈ e.syms) :
    ∃ e ∈ (shocks.foldl (shockStep ord lag) st).eqs, vsym (varOf n) (-((i : Int) + 1)) ∈ e.syms := by
  induction shocks generalizing st with
  | nil => simp [lagged] at hn
  | cons m ss ih =>
    rw [List.foldl_cons]
    obtain ⟨e, he, hs⟩ := h
    by_cases hm : m = n
    · subst hm
      refine shockFold_keeps ho lag ss _ (e.subs (ord (shockDict m (lag m).natAbs))) ?_ _ ?_ rfl
      · unfold shockStep
        rw [if_pos (show (lag m).natAbs > 0 by omega)]
        exact List.mem_map.2 ⟨e, List.mem_append_left _ he, rfl⟩
      refine Eqn.subs_hit _ _ ?_ ?_ (ssym m (-((i : Int) + 1)), vsym (varOf m) (-((i : Int) + 1))) ?_ hs
      · intro kv hk kv' hk'
        exact shockDict_sep _ _ _ ((ho _).mem_iff.1 hk) _ ((ho _).mem_iff.1 hk')
      · intro kv hk kv' hk' heq
        rw [(ho _).mem_iff, shockDict, List.mem_map] at hk hk'
        obtain ⟨a, _, rfl⟩ := hk
        obtain ⟨b, _, rfl⟩ := hk'
        rw [(ssym_inj.1 heq).2]
      · rw [(ho _).mem_iff, shockDict, List.mem_map]
        exact ⟨i, List.mem_range.2 hi, rfl⟩
    · have hn' : n ∈ lagged lag ss := by
        simp only [lagged, List.mem_filter, List.mem_cons] at hn ⊢
        exact ⟨hn.1.resolve_left (fun h => hm h.symm), hn.2⟩
      refine ih _ hn' ?_
      unfold shockStep
      by_cases hl : (lag m).natAbs > 0
      · rw [if_pos hl]
        refine ⟨_, List.mem_map.2 ⟨e, List.mem_append_left _ he, rfl⟩, Eqn.mem_subs _ _ _ hs ?_⟩
        intro kv hkv heq
        rw [(ho _).mem_iff, shockDict, List.mem_map] at hkv
        obtain ⟨a, _, rfl⟩ := hkv
        exact hm (ssym_inj.1 heq).1.symm
      · rw [if_neg hl]; exact ⟨e, he, hs⟩

/-- Symbols after the shock stage, with the depth of the variables of lagged shocks. -/
theorem shockFold_depth (ho : IsOrder ord) (lag : String → Int) (shocks : List String) (st : PState K) :
    ∀ e ∈ (shocks.foldl (shockStep ord lag) st).eqs, ∀ s ∈ e.syms,
      (∃ e' ∈ st.eqs, s ∈ e'.syms) ∨ (∃ n ∈ lagged lag shocks, ∃ d : Int, d ≤ 0 ∧ -((lag n).natAbs : Int) ≤ d ∧ s = vsym (varOf n) d) ∨
        (∃ n ∈ lagged lag shocks, s = ssym n) := by
  induction shocks generalizing st with
  | nil => intro e he s hs; exact Or.inl ⟨e, he, hs⟩
  | cons n ss ih =>
    intro e he s hs
    have hsub : ∀ m ∈ lagged lag ss, m ∈ lagged lag (n :: ss) := by
      intro m hm; simp only [lagged, List.mem_filter, List.mem_cons] at hm ⊢; exact ⟨Or.inr hm.1, hm.2⟩
    rw [List.foldl_cons] at he
    rcases ih _ e he s hs with ⟨e', he', hs'⟩ | ⟨m, hm, d, hd, hd', rfl⟩ | ⟨m, hm, rfl⟩
    · unfold shockStep at he'
      by_cases hl : (lag n).natAbs > 0
      · have hn : n ∈ lagged lag (n :: ss) := by simp [lagged]; omega
        rw [if_pos hl] at he'
        obtain ⟨e0, he0, rfl⟩ := List.mem_map.1 he'
        have hsep : ∀ kv ∈ ord (shockDict n (lag n).natAbs), ∀ kv' ∈ ord (shockDict n (lag n).natAbs), kv.2 ≠ kv'.1 := by
          intro kv hk kv' hk'
          exact shockDict_sep _ _ _ ((ho _).mem_iff.1 hk) _ ((ho _).mem_iff.1 hk')
        rcases Eqn.syms_subs _ _ hsep s hs' with ⟨kv, hk, rfl⟩ | ⟨hs0, _⟩
        · rw [(ho _).mem_iff, shockDict, List.mem_map] at hk
          obtain ⟨i, hi, rfl⟩ := hk
          rw [List.mem_range] at hi
          exact Or.inr (Or.inl ⟨n, hn, _, by omega, by omega, rfl⟩)
        · rcases List.mem_append.1 he0 with he0 | he0
          · exact Or.inl ⟨e0, he0, hs0⟩
          · simp only [List.mem_singleton] at he0
            subst he0
            simp only [Eqn.syms, Expr.syms, List.mem_append, List.mem_singleton] at hs0
            rcases hs0 with rfl | rfl
            · exact Or.inr (Or.inl ⟨n, hn, 0, le_refl _, by omega, rfl⟩)
            · exact Or.inr (Or.inr ⟨n, hn, rfl⟩)
      · rw [if_neg hl] at he'
        exact Or.inl ⟨e', he', hs'⟩
    · exact Or.inr (Or.inl ⟨m, hsub m hm, d, hd, hd', rfl⟩)
    · exact Or.inr (Or.inr ⟨m, hsub m hm, rfl⟩)

/-- Shocks that are not lagged stay. -/
theorem shockFold_leads (ho : IsOrder ord) (lag : String → Int) (shocks : List String) (st : PState K) (e : Eqn K) (he : e ∈ st.eqs)
    (s : TSym) (hs : s ∈ e.syms) (hd : 0 ≤ s.date) : ∃ e' ∈ (shocks.foldl (shockStep ord lag) st).eqs, s ∈ e'.syms := by
  induction shocks generalizing st e with
  | nil => exact ⟨e, he, hs⟩
  | cons m ss ih =>
    rw [List.foldl_cons]
    by_cases hl : (lag m).natAbs > 0
    · refine ih _ (e.subs (ord (shockDict m (lag m).natAbs))) ?_ ?_
      · simp only [shockStep, if_pos hl]
        exact List.mem_map_of_mem (List.mem_append_left _ he)
      · refine Eqn.mem_subs _ _ _ hs ?_
        intro kv hkv heq
        rw [(ho _).mem_iff, shockDict, List.mem_map] at hkv
        obtain ⟨i, _, rfl⟩ := hkv
        rw [heq] at hd
        simp only [ssym, TSym.mk'] at hd
        omega
    · refine ih _ e ?_ hs
      simp only [shockStep, if_neg hl]; exact he

/-- The added variable of a lagged shock occurs without lag. -/
theorem shockFold_own (ho : IsOrder ord) (lag : String → Int) (shocks : List String) (st : PState K) (n : String) (hn : n ∈ lagged lag shocks) :
    ∃ e' ∈ (shocks.foldl (shockStep ord lag) st).eqs, vsym (varOf n) ∈ e'.syms := by
  induction shocks generalizing st with
  | nil => simp [lagged] at hn
  | cons m ss ih =>
    rw [List.foldl_cons]
    by_cases hm : n ∈ lagged lag ss
    · exact ih _ hm
    · simp only [lagged, List.mem_filter, List.mem_cons, decide_eq_true_eq] at hn hm
      obtain ⟨hn1, hl⟩ := hn
      have : n = m := hn1.resolve_right (fun h => hm ⟨h, hl⟩)
      subst this
      refine shockFold_leads ho lag ss _ (Eqn.subs (ord (shockDict n (lag n).natAbs)) ⟨.sym (vsym (varOf n)), .sym (ssym n)⟩) ?_ _ ?_ (le_refl _)
      · simp only [shockStep, if_pos hl]
        exact List.mem_map_of_mem (List.mem_append_right _ (List.mem_singleton.2 rfl))
      · refine Eqn.mem_subs _ _ _ (by simp [Eqn.syms, Expr.syms]) ?_
        intro kv hkv heq
        rw [(ho _).mem_iff, shockDict, List.mem_map] at hkv
        obtain ⟨i, _, rfl⟩ := hkv
        exact vsym_ne_ssym heq

end
end Pydsge
