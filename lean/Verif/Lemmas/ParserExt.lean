import Verif.Lemmas.Parser

/-!
# Extending a path to the added variables; what `get_matrices` accepts
-/

set_option autoImplicit false
set_option linter.unusedSectionVars false
set_option linter.unusedSimpArgs false

namespace Pydsge

namespace Expr
variable {K : Type}

theorem syms_length_subs1 (k v : TSym) (e : Expr K) : (e.subs1 k v).syms.length = e.syms.length := by
  induction e with
  | num c => rfl
  | par c => rfl
  | sym t => simp only [subs1]; split <;> rfl
  | neg a ih => exact ih
  | pow a n ih => exact ih
  | _ => rename_i iha ihb; simp only [subs1, syms, List.length_append, iha, ihb]

theorem syms_length_subs (d : List (TSym × TSym)) (e : Expr K) : (e.subs d).syms.length = e.syms.length := by
  induction d generalizing e with
  | nil => rfl
  | cons kv d ih => rw [subs_cons, ih, syms_length_subs1]

theorem mem_subs1 (k v : TSym) (e : Expr K) (s : TSym) (hs : s ∈ e.syms) (hne : s ≠ k) : s ∈ (e.subs1 k v).syms := by
  induction e with
  | num c => exact hs
  | par c => exact hs
  | sym t =>
    simp only [syms, List.mem_singleton] at hs
    subst hs
    simp only [subs1, if_neg hne, syms, List.mem_singleton]
  | neg a ih => exact ih hs
  | pow a n ih => exact ih hs
  | _ =>
    rename_i iha ihb
    simp only [subs1, syms, List.mem_append] at hs ⊢
    exact hs.imp iha ihb

theorem mem_subs (d : List (TSym × TSym)) (e : Expr K) (s : TSym) (hs : s ∈ e.syms) (hne : ∀ kv ∈ d, s ≠ kv.1) :
    s ∈ (e.subs d).syms := by
  induction d generalizing e with
  | nil => exact hs
  | cons kv d ih =>
    rw [subs_cons]
    exact ih _ (mem_subs1 _ _ _ _ hs (hne kv (by simp))) (fun kv' h => hne kv' (by simp [h]))

end Expr

theorem Eqn.mem_subs {K : Type} (d : List (TSym × TSym)) (e : Eqn K) (s : TSym) (hs : s ∈ e.syms) (hne : ∀ kv ∈ d, s ≠ kv.1) :
    s ∈ (e.subs d).syms := by
  simp only [Eqn.syms, Eqn.subs, List.mem_append] at hs ⊢
  exact hs.imp (fun h => Expr.mem_subs d _ s h hne) (fun h => Expr.mem_subs d _ s h hne)

theorem Eqn.syms_length_subs {K : Type} (d : List (TSym × TSym)) (e : Eqn K) : (e.subs d).syms.length = e.syms.length := by
  simp only [Eqn.syms, Eqn.subs, List.length_append, Expr.syms_length_subs]

namespace Parser
variable {K : Type} [Field K]

/-- Numbers of symbols, equation by equation. -/
def sizes (eqs : List (Eqn K)) : List Nat := eqs.map (fun e => e.syms.length)

theorem sizes_subs (d : List (TSym × TSym)) (eqs : List (Eqn K)) : sizes (eqs.map (Eqn.subs d)) = sizes eqs := by
  simp only [sizes, List.map_map]
  exact List.map_congr_left fun e _ => Eqn.syms_length_subs d e

theorem sizes_append (a b : List (Eqn K)) : sizes (a ++ b) = sizes a ++ sizes b := by simp [sizes]

theorem shockFold_sizes (ord : List (TSym × TSym) → List (TSym × TSym)) (lag : String → Int) (shocks : List String) (st : PState K) :
    sizes (shocks.foldl (shockStep ord lag) st).eqs = sizes st.eqs ++ List.replicate (lagged lag shocks).length 2 := by
  induction shocks generalizing st with
  | nil => simp [lagged]
  | cons s ss ih =>
    simp only [List.foldl_cons, ih, lagged, List.filter_cons]
    by_cases hl : (lag s).natAbs > 0
    · have : decide (0 < (lag s).natAbs) = true := by simpa using hl
      simp only [shockStep, hl, if_true, this, sizes_subs, sizes_append, List.append_assoc, List.length_cons]
      congr 1
    · have : decide (0 < (lag s).natAbs) = false := by simpa using hl
      simp [shockStep, hl, this]

theorem endoEqs_sizes (vars : List String) (n k : String → Nat) :
    sizes (endoEqs (K := K) vars n k) = List.replicate (endoEqs (K := K) vars n k).length 2 := by
  rw [List.eq_replicate_iff]
  refine ⟨by simp [sizes], ?_⟩
  intro b hb
  simp only [sizes, List.mem_map] at hb
  obtain ⟨e, he, rfl⟩ := hb
  simp only [endoEqs, lagEqs, leadEqs, List.mem_flatMap, List.mem_append, List.mem_map, List.mem_range] at he
  obtain ⟨v, _, ⟨j, _, rfl⟩ | ⟨j, _, rfl⟩⟩ := he <;> rfl

/-- The names of the added variables. -/
def endoNames (vars : List String) (n k : String → Nat) : List String :=
  vars.flatMap (fun v => lagNames v (n v) ++ leadNames v (k v))

theorem endoNames_length (vars : List String) (n k : String → Nat) :
    (endoNames vars n k).length = (endoEqs (K := K) vars n k).length := by
  simp [endoNames, endoEqs, List.length_flatMap, lagNames, leadNames, lagEqs, leadEqs]

theorem mem_endoNames (vars : List String) (n k : String → Nat) (w : String) :
    w ∈ endoNames vars n k ↔ ∃ v ∈ vars, (∃ j, j + 1 < n v ∧ w = lagVar v (j + 1)) ∨ (∃ j, j + 1 < k v ∧ w = leadVar v (j + 1)) := by
  simp only [endoNames, lagNames, leadNames, List.mem_flatMap, List.mem_append, List.mem_map, List.mem_range]
  constructor
  · rintro ⟨v, hv, ⟨j, hj, rfl⟩ | ⟨j, hj, rfl⟩⟩
    · exact ⟨v, hv, Or.inl ⟨j, by omega, rfl⟩⟩
    · exact ⟨v, hv, Or.inr ⟨j, by omega, rfl⟩⟩
  · rintro ⟨v, hv, ⟨j, hj, rfl⟩ | ⟨j, hj, rfl⟩⟩
    · exact ⟨v, hv, Or.inl ⟨j, by omega, rfl⟩⟩
    · exact ⟨v, hv, Or.inr ⟨j, by omega, rfl⟩⟩

section Unique

theorem unique_spec_aux (vars acc : List String) (ha : acc.Nodup) :
    (vars.foldl (fun acc v => if v ∈ acc then acc else acc ++ [v]) acc).Nodup ∧
      ∀ x, x ∈ vars.foldl (fun acc v => if v ∈ acc then acc else acc ++ [v]) acc ↔ x ∈ acc ∨ x ∈ vars := by
  induction vars generalizing acc with
  | nil => exact ⟨ha, by simp⟩
  | cons v vs ih =>
    simp only [List.foldl_cons]
    by_cases hv : v ∈ acc
    · rw [if_pos hv]
      obtain ⟨h1, h2⟩ := ih acc ha
      refine ⟨h1, fun x => ?_⟩
      rw [h2, List.mem_cons]
      constructor
      · rintro (h | h) <;> simp [h]
      · rintro (h | rfl | h) <;> simp [*]
    · rw [if_neg hv]
      have ha' : (acc ++ [v]).Nodup := by
        rw [List.nodup_append]
        exact ⟨ha, by simp, fun a h b hb => by simp only [List.mem_singleton] at hb; subst hb; rintro rfl; exact hv h⟩
      obtain ⟨h1, h2⟩ := ih _ ha'
      refine ⟨h1, fun x => ?_⟩
      rw [h2, List.mem_cons, List.mem_append, List.mem_singleton, or_assoc]

theorem unique_nodup (vars : List String) : (unique vars).Nodup := (unique_spec_aux vars [] List.nodup_nil).1

theorem mem_unique (vars : List String) (x : String) : x ∈ unique vars ↔ x ∈ vars := by
  have := (unique_spec_aux vars [] List.nodup_nil).2 x
  simpa [unique] using this

theorem unique_length (vars : List String) : (unique vars).length = vars.dedup.length := by
  refine List.Perm.length_eq ?_
  rw [List.perm_ext_iff_of_nodup (unique_nodup vars) (List.nodup_dedup vars)]
  intro x; rw [mem_unique, List.mem_dedup]

theorem nodup_of_unique_length (vars : List String) (h : vars.length ≤ (unique vars).length) : vars.Nodup := by
  rw [unique_length] at h
  have hs := List.dedup_sublist vars
  have := hs.eq_of_length (le_antisymm hs.length_le h)
  rw [← this]; exact List.nodup_dedup vars

end Unique

theorem checkRows_ok (rows : Nat) (vars shocks : List String) (i : Nat) (eqs : List (Eqn K)) :
    checkRows rows vars shocks i eqs = .ok () ↔ ∀ j e, eqs[j]? = some e → rowCheck rows vars shocks (i + j) e = .ok () := by
  induction eqs generalizing i with
  | nil => simp [checkRows]
  | cons e es ih =>
    simp only [checkRows]
    cases h : rowCheck rows vars shocks i e with
    | error err =>
      simp only [reduceCtorEq, false_iff, not_forall]
      exact ⟨0, e, rfl, by simp [h]⟩
    | ok u =>
      simp only
      rw [ih]
      constructor
      · intro h' j e' hj
        cases j with
        | zero => simp only [List.getElem?_cons_zero, Option.some.injEq] at hj; subst hj; exact h
        | succ j => rw [List.getElem?_cons_succ] at hj; have := h' j e' hj; rwa [show i + (j + 1) = i + 1 + j by omega]
      · intro h' j e' hj
        have := h' (j + 1) e' (by simpa using hj)
        rwa [show i + 1 + j = i + (j + 1) by omega]

/-- `get_matrices` only succeeds if there are as many different variables as names in the list, provided that the last equation
mentions anything at all. -/
theorem getMatrices_nodup (I : Interp K) (vars shocks : List String) (eqs : List (Eqn K)) (M : Mats K)
    (h : getMatrices I true vars shocks eqs = .ok M) (hlen : eqs.length + 1 = vars.length)
    (hlast : ∃ e, eqs[eqs.length - 1]? = some e ∧ e.syms ≠ []) : vars.Nodup := by
  obtain ⟨e, he, hs⟩ := hlast
  have hpos : 0 < eqs.length := by
    have := (List.getElem?_eq_some_iff.1 he).1
    omega
  unfold getMatrices at h
  simp only [if_true] at h
  cases hc : checkRows ((unique vars).length - 1) (unique vars) shocks 0 eqs with
  | error err => rw [hc] at h; cases h
  | ok u =>
    have := (checkRows_ok _ _ _ _ _).1 hc _ _ he
    unfold rowCheck at this
    split at this
    · cases this
    · split at this
      · cases this
      · rename_i hn
        simp only [not_and, not_le] at hn
        have := hn hs
        exact nodup_of_unique_length _ (by omega)

open Classical in
/-- Overwrite the values of the listed variables. -/
noncomputable def override (y : Path K) (L : List (String × (Int → K))) : Path K
  | .shock, n, t => y .shock n t
  | .variable, n, t => if h : ∃ f, (n, f) ∈ L then h.choose t else y .variable n t

theorem override_mem (y : Path K) (L : List (String × (Int → K))) (hL : (L.map Prod.fst).Nodup) (n : String) (f : Int → K)
    (h : (n, f) ∈ L) (t : Int) : override y L .variable n t = f t := by
  have hex : ∃ f, (n, f) ∈ L := ⟨f, h⟩
  simp only [override, dif_pos hex]
  have := List.inj_on_of_nodup_map hL hex.choose_spec h rfl
  rw [(Prod.mk.inj this).2]

theorem override_not_mem (y : Path K) (L : List (String × (Int → K))) (n : String) (h : n ∉ L.map Prod.fst) (t : Int) :
    override y L .variable n t = y .variable n t := by
  have : ¬ ∃ f, (n, f) ∈ L := by
    rintro ⟨f, hf⟩; exact h (List.mem_map.2 ⟨_, hf, rfl⟩)
  simp only [override, dif_neg this]

/-- Extension to the variables of lagged shocks. -/
noncomputable def extShock (y : Path K) (ls : List String) : Path K := override y (ls.map (fun s => (varOf s, y .shock s)))

/-- Extension to lags and leads. -/
noncomputable def extEndo (y : Path K) (vars : List String) (n k : String → Nat) : Path K :=
  override y (vars.flatMap (fun v =>
    (List.range (n v - 1)).map (fun (j : Nat) => (lagVar v (j + 1), fun t => y .variable v (t - ((j : Int) + 1)))) ++
    (List.range (k v - 1)).map (fun (j : Nat) => (leadVar v (j + 1), fun t => y .variable v (t + 1)))))

theorem extEndo_keys (y : Path K) (vars : List String) (n k : String → Nat) :
    (vars.flatMap (fun v =>
      (List.range (n v - 1)).map (fun (j : Nat) => (lagVar v (j + 1), fun t => y .variable v (t - ((j : Int) + 1)))) ++
      (List.range (k v - 1)).map (fun (j : Nat) => (leadVar v (j + 1), fun t => y .variable v (t + 1))))).map Prod.fst
      = endoNames vars n k := by
  simp only [endoNames, lagNames, leadNames, List.map_flatMap, List.map_append, List.map_map]
  rfl

theorem extEndo_meaning (y : Path K) (vars : List String) (n k : String → Nat) (hnd : (vars ++ endoNames vars n k).Nodup) :
    LagMeaning vars n (extEndo y vars n k) ∧ LeadMeaning vars k (extEndo y vars n k) ∧
      ∀ w ∉ endoNames vars n k, ∀ t, extEndo y vars n k .variable w t = y .variable w t := by
  rw [List.nodup_append] at hnd
  obtain ⟨_, h2, h3⟩ := hnd
  have hkeys := extEndo_keys y vars n k
  have hout : ∀ w ∉ endoNames vars n k, ∀ t, extEndo y vars n k .variable w t = y .variable w t := by
    intro w hw t
    exact override_not_mem _ _ _ (by rw [hkeys]; exact hw) t
  have hv : ∀ v ∈ vars, v ∉ endoNames vars n k := fun v hv hm => h3 v hv v hm rfl
  refine ⟨?_, ?_, hout⟩
  · intro v hvm j hj t
    rw [hout v (hv v hvm)]
    exact override_mem _ _ (by rw [hkeys]; exact h2) _ (fun t => y .variable v (t - ((j : Int) + 1)))
      (List.mem_flatMap.2 ⟨v, hvm, List.mem_append_left _ (List.mem_map.2 ⟨j, List.mem_range.2 (by omega), rfl⟩)⟩) t
  · intro v hvm j hj t
    rw [hout v (hv v hvm)]
    exact override_mem _ _ (by rw [hkeys]; exact h2) _ (fun t => y .variable v (t + 1))
      (List.mem_flatMap.2 ⟨v, hvm, List.mem_append_right _ (List.mem_map.2 ⟨j, List.mem_range.2 (by omega), rfl⟩)⟩) t

theorem foldl_min_le (l : List Int) (a : Int) : l.foldl min a ≤ a ∧ ∀ x ∈ l, l.foldl min a ≤ x := by
  induction l generalizing a with
  | nil => simp
  | cons b l ih =>
    simp only [List.foldl_cons]
    obtain ⟨h1, h2⟩ := ih (min a b)
    refine ⟨le_trans h1 (min_le_left _ _), ?_⟩
    intro x hx
    rcases List.mem_cons.1 hx with rfl | hx
    · exact le_trans h1 (min_le_right _ _)
    · exact h2 x hx

theorem foldl_max_ge (l : List Int) (a : Int) : a ≤ l.foldl max a ∧ ∀ x ∈ l, x ≤ l.foldl max a := by
  induction l generalizing a with
  | nil => simp
  | cons b l ih =>
    simp only [List.foldl_cons]
    obtain ⟨h1, h2⟩ := ih (max a b)
    refine ⟨le_trans (le_max_left _ _) h1, ?_⟩
    intro x hx
    rcases List.mem_cons.1 hx with rfl | hx
    · exact le_trans (le_max_right _ _) h1
    · exact h2 x hx

theorem minDate_le (l : List Int) (x : Int) (h : x ∈ l) : minDate l ≤ x := (foldl_min_le l _).2 x h
theorem le_maxDate (l : List Int) (x : Int) (h : x ∈ l) : x ≤ maxDate l := (foldl_max_ge l _).2 x h

theorem mem_dates (eqs : List (Eqn K)) (e : Eqn K) (he : e ∈ eqs) (s : TSym) (hs : s ∈ e.syms) :
    s.date ∈ dates s.kind s.name eqs := by
  simp only [dates, List.mem_map, List.mem_filter, List.mem_flatMap]
  exact ⟨s, ⟨⟨e, he, hs⟩, by simp⟩, rfl⟩

end Parser
end Pydsge
