import Verif.Props.Calls

/-!
# C96: when the order of variables is the same under two parametrisations
-/

set_option autoImplicit false
set_option linter.unusedSectionVars false
set_option linter.unusedSimpArgs false

namespace Pydsge
open Pydsge.GenSys Pydsge.Calls

/-- Moving the elements with `P` to the front, keeping the order otherwise. -/
def Spec.front {α : Type} (P : α → Bool) (L : List α) : List α := L.filter P ++ L.filter (fun a => !P a)

theorem append_cons_inj {α : Type} {a : α} {x y u v : List α} (hx : a ∉ x) (hu : a ∉ u) (h : x ++ a :: y = u ++ a :: v) : x = u ∧ y = v := by
  induction x generalizing u with
  | nil =>
    cases u with
    | nil => simpa using h
    | cons b u => simp at h; exact absurd h.1 (by simp at hu; exact hu.1)
  | cons b x ih =>
    cases u with
    | nil => simp at h; exact absurd h.1.symm (by simp at hx; exact hx.1)
    | cons c u =>
      simp at h hx hu
      obtain ⟨h1, h2⟩ := ih hx.2 hu.2 h.2
      exact ⟨by rw [h.1, h1], h2⟩

theorem filter_eq_iff {α : Type} (P Q : α → Bool) (L : List α) : L.filter P = L.filter Q ↔ ∀ a ∈ L, P a = Q a := by
  constructor
  · intro h a ha
    have h1 : a ∈ L.filter P ↔ a ∈ L.filter Q := by rw [h]
    simp only [List.mem_filter, ha, true_and] at h1
    cases hp : P a <;> cases hq : Q a <;> simp_all
  · intro h
    exact List.filter_congr h

/-- Two rules give the same order exactly if they exchange the same pairs. -/
theorem front_eq_iff {α : Type} (P Q : α → Bool) (L : List α) (hn : L.Nodup) :
    Spec.front P L = Spec.front Q L ↔ L.Pairwise fun a b => (P a = false ∧ P b = true) ↔ (Q a = false ∧ Q b = true) := by
  induction L with
  | nil => simp [Spec.front]
  | cons a t ih =>
    obtain ⟨ha, ht⟩ := List.nodup_cons.1 hn
    have hpa : ∀ R : α → Bool, a ∉ t.filter R := fun R h => ha (List.mem_of_mem_filter h)
    specialize ih ht
    rw [List.pairwise_cons, ← ih]
    -- one rule leaves `a` in front, the other one does not
    have mixed : ∀ R S : α → Bool, (a :: Spec.front R t = t.filter S ++ a :: t.filter (fun b => !S b)) ↔
        (∀ b ∈ t, S b = false) ∧ Spec.front R t = Spec.front S t := by
      intro R S
      constructor
      · intro h
        obtain ⟨h1, h2⟩ := append_cons_inj (x := []) (by simp) (hpa S) h
        refine ⟨fun b hb => ?_, ?_⟩
        · by_contra hc
          have : b ∈ t.filter S := List.mem_filter.2 ⟨hb, by simpa using hc⟩
          rw [← h1] at this
          cases this
        · rw [h2, Spec.front, ← h1, List.nil_append]
      · rintro ⟨h1, h2⟩
        have : t.filter S = [] := List.filter_eq_nil_iff.2 fun b hb => by simp [h1 b hb]
        rw [h2, Spec.front, this, List.nil_append, List.nil_append]
    cases hP : P a <;> cases hQ : Q a
    · simp only [Spec.front, List.filter_cons, hP, hQ, Bool.false_eq_true, if_false, Bool.not_false, if_true, true_and]
      constructor
      · intro h
        obtain ⟨h1, h2⟩ := append_cons_inj (hpa P) (hpa Q) h
        refine ⟨fun b hb => ?_, by rw [h1, h2]⟩
        rw [(filter_eq_iff P Q t).1 h1 b hb]
      · rintro ⟨h1, _⟩
        have h3 : ∀ b ∈ t, P b = Q b := fun b hb => by
          have := h1 b hb
          cases hp : P b <;> cases hq : Q b <;> simp_all
        rw [(filter_eq_iff P Q t).2 h3, (filter_eq_iff (fun b => !P b) (fun b => !Q b) t).2 fun b hb => by rw [h3 b hb]]
    · have := mixed Q P
      simp only [Spec.front, List.filter_cons, hP, hQ, Bool.false_eq_true, if_false, Bool.not_false, Bool.not_true, if_true, true_and, false_and,
        Bool.true_eq_false, iff_false, Bool.not_eq_true, List.cons_append] at this ⊢
      rw [eq_comm, this, eq_comm (a := List.filter Q t ++ _)]
    · have := mixed P Q
      simp only [Spec.front, List.filter_cons, hP, hQ, Bool.false_eq_true, if_false, Bool.not_false, Bool.not_true, if_true, true_and, false_and,
        Bool.true_eq_false, false_iff, Bool.not_eq_true, List.cons_append] at this ⊢
      exact this
    · simp only [Spec.front, List.filter_cons, hP, hQ, Bool.not_true, Bool.false_eq_true, if_false, if_true, Bool.true_eq_false, false_and,
        List.cons_append, List.cons.injEq, true_and, implies_true]

section Order
variable {E ν ε o H K : Type} [Fintype E] [Fintype ν] [Fintype ε] [Fintype o] [Fintype H] [DecidableEq E] [DecidableEq ν] [DecidableEq ε] [DecidableEq H]
  [Field K] [LinearOrder K] [IsStrictOrderedRing K]

/-- A variable is a state if its lag, but not its lead, is in some equation, or if its lag is in the constraint; an auxiliary variable if the
lag that it stands for is in some equation. Coefficients smaller than `tol` do not count. -/
def Spec.IsState (tol : K) (m : Input E ν ε o K) (hyb : H → ν) : ν ⊕ H → Prop
  | .inl v => ((∃ e, tol ≤ |m.CC0 e v|) ∧ ¬ ∃ e, tol ≤ |m.AA0 e v|) ∨ tol ≤ |m.fc0 v / m.fb0 m.cvar|
  | .inr h => ∃ e, tol ≤ |m.CC0 e (hyb h)|

/-- A variable that is in the model with these parameters: it is a state, or it or its lead is in some equation. -/
def Spec.IsPresent (tol : K) (m : Input E ν ε o K) (hyb : H → ν) : ν ⊕ H → Prop
  | .inl v => Spec.IsState tol m hyb (.inl v) ∨ (∃ e, tol ≤ |m.AA0 e v|) ∨ ∃ e, tol ≤ |m.BB0 e v|
  | .inr _ => True

theorem inq_isState (tol : K) (htol : 0 < tol) (m : Input E ν ε o K) [DecidablePred (inall tol m)] (hyb : H → ν) (w : ν ⊕ H) :
    inq tol m hyb (.inl w) ↔ Spec.IsState tol m hyb w := by
  have hnc : ∀ {R : Type} (M : Matrix R ν K) (v : ν), (¬ fast0Col tol M v) ↔ ∃ e, tol ≤ |M e v| := fun M v => by
    unfold fast0Col
    push Not
    rfl
  rcases w with v | h
  · simp only [inq, Spec.IsState, fast0Col_CC1_var tol htol, fast0_fcY, inall, hnc, not_or, not_and]
    have hfc : (¬ fast0 tol (fcN m v)) ↔ tol ≤ |m.fc0 v / m.fb0 m.cvar| := by
      unfold fast0 fcN
      rw [not_lt, neg_div, abs_neg]
    rw [hfc]
    refine or_congr ?_ Iff.rfl
    constructor
    · rintro ⟨h1, h2⟩
      exact ⟨h2, fun h3 => h1 h3 h2⟩
    · rintro ⟨h1, h2⟩
      exact ⟨fun h3 => absurd h3 h2, h1⟩
  · simp only [inq, Spec.IsState, fast0Col_CC1_lag tol htol, hnc]
    have : fast0 tol (fcY (H := H) m (.inl (.inr h))) := by simpa [fast0, fcY] using htol
    simp [this]

theorem inp_isState (tol : K) (htol : 0 < tol) (htol1 : tol ≤ 1) (m : Input E ν ε o K) [DecidablePred (inall tol m)] (hyb : H → ν) (w : ν ⊕ H)
    (hp : Spec.IsPresent tol m hyb w) : inp tol m hyb (.inl w) ↔ ¬ Spec.IsState tol m hyb w := by
  unfold inp
  rw [inq_isState tol htol, and_iff_right_iff_imp]
  intro hns
  rcases w with v | h
  · rcases hp with hp | ⟨e, he⟩ | ⟨e, he⟩
    · exact absurd hp hns
    · exact Or.inl fun hc => absurd ((fast0Col_AA1_var tol htol m v).1 hc e) (not_lt.2 he)
    · exact Or.inr fun hc => absurd (((fast0Col_BB1_var tol htol m hyb v).1 hc).1 e) (not_lt.2 he)
  · refine Or.inr fun hc => ?_
    have := hc (.inl (.inr h))
    simp [BB1] at this
    exact absurd this (not_lt.2 htol1)

open Classical in
theorem vv_front (tol : K) (htol : 0 < tol) (htol1 : tol ≤ 1) (m : Input E ν ε o K) [DecidablePred (inall tol m)] (hyb : H → ν)
    (vv0 : List (ν ⊕ H)) (hp : ∀ w ∈ vv0, Spec.IsPresent tol m hyb w) :
    vv tol m hyb vv0 = Spec.front (fun w => decide (¬ Spec.IsState tol m hyb w)) vv0 := by
  unfold vv cvv svv Spec.front
  congr 1
  · refine List.filter_congr fun w hw => ?_
    rw [decide_eq_decide, inp_isState tol htol htol1 m hyb w (hp w hw)]
  · refine List.filter_congr fun w hw => ?_
    rw [← decide_not, decide_eq_decide, inq_isState tol htol, not_not]

/-- **C96**: the order of variables is the same under two parametrisations exactly if no two variables are exchanged under one of them only: the
first a state and the second not. (With all variables present under both.) -/
theorem C96_exact (tol : K) (htol : 0 < tol) (htol1 : tol ≤ 1) (m m' : Input E ν ε o K) [DecidablePred (inall tol m)] [DecidablePred (inall tol m')]
    (hyb : H → ν) (vv0 : List (ν ⊕ H)) (hn : vv0.Nodup) (hp : ∀ w ∈ vv0, Spec.IsPresent tol m hyb w) (hp' : ∀ w ∈ vv0, Spec.IsPresent tol m' hyb w) :
    vv tol m hyb vv0 = vv tol m' hyb vv0 ↔ vv0.Pairwise fun a b =>
      (Spec.IsState tol m hyb a ∧ ¬ Spec.IsState tol m hyb b) ↔ (Spec.IsState tol m' hyb a ∧ ¬ Spec.IsState tol m' hyb b) := by
  classical
  rw [vv_front tol htol htol1 m hyb vv0 hp, vv_front tol htol htol1 m' hyb vv0 hp', front_eq_iff _ _ _ hn]
  simp

/-- **C96**: states and other variables are the same exactly if no variable is a state under one of them only. -/
theorem C96_split (tol : K) (htol : 0 < tol) (htol1 : tol ≤ 1) (m m' : Input E ν ε o K) [DecidablePred (inall tol m)] [DecidablePred (inall tol m')]
    (hyb : H → ν) (vv0 : List (ν ⊕ H)) (hp : ∀ w ∈ vv0, Spec.IsPresent tol m hyb w) (hp' : ∀ w ∈ vv0, Spec.IsPresent tol m' hyb w) :
    (svv tol m hyb vv0 = svv tol m' hyb vv0 ∧ cvv tol m hyb vv0 = cvv tol m' hyb vv0) ↔
      ∀ w ∈ vv0, Spec.IsState tol m hyb w ↔ Spec.IsState tol m' hyb w := by
  classical
  unfold svv cvv
  rw [filter_eq_iff, filter_eq_iff]
  simp only [decide_eq_decide, inq_isState tol htol]
  constructor
  · exact fun h => h.1
  · refine fun h => ⟨h, fun w hw => ?_⟩
    rw [inp_isState tol htol htol1 m hyb w (hp w hw), inp_isState tol htol htol1 m' hyb w (hp' w hw), h w hw]

end Order

/-- **C96**: `irfs` with columns `cols` and values in the order `ord` gives every variable its own value, whatever the values are, exactly if the two
orders are the same. -/
theorem C96_labels_exact {K : Type} [Field K] [LinearOrder K] (cols ord : List String) :
    (∀ f : String → K, frameRow cols (ord.map f) = .ok (cols.map fun v => (v, f v))) ↔ cols = ord := by
  constructor
  · intro h
    obtain ⟨x, y, hxy⟩ := exists_pair_ne K
    have hlen : ord.length = cols.length := by
      by_contra hne
      have h1 := (C96_frame_row cols (ord.map fun _ => x)).1 (by simpa using hne)
      rw [h fun _ => x] at h1
      cases h1
    refine List.ext_getElem hlen.symm fun i h1 h2 => ?_
    let f : String → K := fun s => if s = cols[i] then x else y
    obtain ⟨row, hr, hf, hs⟩ := (C96_frame_row cols (ord.map f)).2 (by simpa using hlen)
    rw [h f] at hr
    cases hr
    rw [List.map_map] at hs
    have h3 : (cols.map f)[i]? = (ord.map f)[i]? := by
      rw [← hs]
      rfl
    simp only [List.getElem?_map, List.getElem?_eq_getElem h1, List.getElem?_eq_getElem h2, Option.map_some, Option.some.injEq] at h3
    by_contra hne
    simp only [f, if_true, if_neg (Ne.symm hne)] at h3
    exact hxy h3
  · rintro rfl f
    obtain ⟨row, hr, hf, hs⟩ := (C96_frame_row cols (cols.map f)).2 (by simp)
    rw [hr]
    congr 1
    refine List.ext_getElem? fun i => ?_
    have h1 := congrArg (·[i]?) hf
    have h2 := congrArg (·[i]?) hs
    simp only [List.getElem?_map] at h1 h2 ⊢
    cases hc : cols[i]? with
    | none => simpa [hc] using h1
    | some c =>
      rw [hc] at h1 h2
      cases hrow : row[i]? with
      | none => simp [hrow] at h1
      | some p =>
        simp [hrow] at h1 h2 ⊢
        exact Prod.ext h1 h2

theorem OrderEx.isState_iff (a b : Rat) (v : Fin 2) : Spec.IsState (H := Empty) (1/1000) (OrderEx.inp a b) Empty.elim (.inl v) ↔ 1/1000 ≤ |![a, b] v| := by
  classical
  rw [← inq_isState _ (by norm_num), OrderEx.inq_iff]

theorem OrderEx.present (a b : Rat) (w : Fin 2 ⊕ Empty) : Spec.IsPresent (1/1000) (OrderEx.inp a b) Empty.elim w := by
  rcases w with v | e
  · refine Or.inr (Or.inr ⟨0, ?_⟩)
    fin_cases v <;> simp [OrderEx.inp, Input.ofYaml] <;> norm_num [abs_of_neg, abs_of_pos]
  · exact e.elim

/-- **C96**: the hypotheses are met: `x` and `y` are in the same order with `(0, 1/2)` and with `(0, 0)`, though `y` is a state only under the first one;
with `(1/2, 0)` they are in another one. -/
theorem C96_exact_met [DecidablePred (inall (1/1000) (OrderEx.inp 0 (1/2)))] [DecidablePred (inall (1/1000) (OrderEx.inp 0 0))]
    [DecidablePred (inall (1/1000) (OrderEx.inp (1/2) 0))] :
    vv (H := Empty) (1/1000) (OrderEx.inp 0 (1/2)) Empty.elim [.inl 0, .inl 1] = vv (1/1000) (OrderEx.inp 0 0) Empty.elim [.inl 0, .inl 1] ∧
    Spec.IsState (H := Empty) (1/1000) (OrderEx.inp 0 (1/2)) Empty.elim (.inl 1) ∧ ¬ Spec.IsState (H := Empty) (1/1000) (OrderEx.inp 0 0) Empty.elim (.inl 1) ∧
    vv (H := Empty) (1/1000) (OrderEx.inp 0 (1/2)) Empty.elim [.inl 0, .inl 1] ≠ vv (1/1000) (OrderEx.inp (1/2) 0) Empty.elim [.inl 0, .inl 1] := by
  refine ⟨?_, ?_, ?_, ?_⟩
  · rw [C96_exact _ (by norm_num) (by norm_num) _ _ _ _ (by simp) (fun w _ => OrderEx.present _ _ w) (fun w _ => OrderEx.present _ _ w)]
    simp only [List.pairwise_cons, List.mem_cons, List.not_mem_nil, or_false, forall_eq, OrderEx.isState_iff]
    norm_num [abs_of_pos]
  · rw [OrderEx.isState_iff]
    norm_num [abs_of_pos]
  · rw [OrderEx.isState_iff]
    norm_num [abs_of_pos]
  · rw [Ne, C96_exact _ (by norm_num) (by norm_num) _ _ _ _ (by simp) (fun w _ => OrderEx.present _ _ w) (fun w _ => OrderEx.present _ _ w)]
    simp only [List.pairwise_cons, List.mem_cons, List.not_mem_nil, or_false, forall_eq, OrderEx.isState_iff]
    norm_num [abs_of_pos]

end Pydsge
