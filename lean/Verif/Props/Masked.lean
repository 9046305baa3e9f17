import Verif.Model.Masked
import Verif.Props.Slices

/-!
# C164: no variable is lost silently.  C165: what `gen_sys` prints
-/

set_option autoImplicit false
set_option linter.unusedSectionVars false
set_option linter.unusedSimpArgs false

namespace Pydsge

open Matrix Pydsge.GenSys Pydsge.Slices Pydsge.Masked

variable {E ν ε o H K : Type} [Fintype E] [Fintype ν] [Fintype ε] [Fintype o] [DecidableEq E] [DecidableEq ν] [DecidableEq ε] [DecidableEq H]
  [Field K] [LinearOrder K] [IsStrictOrderedRing K]

/-! ## Specification -/

/-- The variable occurs in a model equation, at any date, or with a lag in the constraint (normalised to coefficient one of the constrained variable);
coefficients below the tolerance do not count. -/
def Spec.Used (tol : K) (m : Input E ν ε o K) (v : ν) : Prop :=
  (∃ e, tol ≤ |m.AA0 e v|) ∨ (∃ e, tol ≤ |m.BB0 e v|) ∨ (∃ e, tol ≤ |m.CC0 e v|) ∨ tol ≤ |m.fc0 v / m.fb0 m.cvar|

/-- The list has every element once. -/
def Spec.Enumerates {α : Type} (l : List α) : Prop := l.Nodup ∧ ∀ a, a ∈ l

section
variable (tol : K) (m : Input E ν ε o K) (hyb : H → ν) [DecidablePred (inall tol m)]

/-- An entry of y-space has a place in the system. -/
def Placed (y : Cols ν H ε) : Prop := inq tol m hyb y ∨ inp tol m hyb y

theorem placed_iff (y : Cols ν H ε) : Placed tol m hyb y ↔
    ¬ fast0Col tol (AA1 (H := H) m) y ∨ ¬ fast0Col tol (BB1 m hyb) y ∨ ¬ fast0Col tol (CC1 tol m hyb) y ∨ ¬ fast0 tol (fcY (H := H) m y) := by
  unfold Placed inp inq
  tauto

theorem placed_shock (htol : tol ≤ 1) (e : ε) : Placed tol m hyb (.inr e) := by
  by_cases h : inq tol m hyb (.inr e)
  · exact .inl h
  · exact .inr (dead_shock_in_p tol m hyb htol e h)

theorem placed_aux (htol : tol ≤ 1) (a : H) : Placed (ε := ε) tol m hyb (.inl (.inr a)) := by
  rw [placed_iff]
  right; left
  intro hc
  have := hc (.inl (.inr a))
  simp [BB1] at this
  exact absurd htol (not_le.2 this)

theorem placed_var (hr : ∀ v, (∃ h, hyb h = v) → inall tol m v) (htol0 : 0 < tol) (htol : tol ≤ 1) (v : ν) :
    Placed (ε := ε) tol m hyb (.inl (.inl v)) ↔ Spec.Used tol m v := by
  have hcol : ∀ {c : Type} (A : Matrix E c K) (j : c), ¬ fast0Col tol A j ↔ ∃ e, tol ≤ |A e j| := by
    intro c A j
    unfold fast0Col
    push Not
    rfl
  have hfc : ¬ fast0 tol (fcY (H := H) (ε := ε) m (.inl (.inl v))) ↔ tol ≤ |m.fc0 v / m.fb0 m.cvar| := by
    unfold fast0
    rw [not_lt]
    have : |fcY (H := H) (ε := ε) m (.inl (.inl v))| = |m.fc0 v / m.fb0 m.cvar| := by
      unfold fcY fcN
      cases m.fd0 <;> simp [neg_div]
    rw [this]
  have hA : ¬ fast0Col tol (AA1 (H := H) (ε := ε) m) (.inl (.inl v)) ↔ ∃ e, tol ≤ |m.AA0 e v| := by
    rw [← hcol, not_iff_not]
    constructor
    · exact fun h e => h (.inl (.inl e))
    · rintro h ((e | e) | e)
      · exact h e
      · simpa [AA1] using htol0
      · simpa [AA1] using htol0
  rw [placed_iff, hA, hfc]
  by_cases hin : inall tol m v
  · have := (hcol m.AA0 v).1 hin.1
    unfold Spec.Used
    exact ⟨fun _ => .inl this, fun _ => .inl this⟩
  · have hnh : ∀ a, hyb a ≠ v := fun a ha => hin (hr v ⟨a, ha⟩)
    have hB : ¬ fast0Col tol (BB1 (ε := ε) m hyb) (.inl (.inl v)) ↔ ∃ e, tol ≤ |m.BB0 e v| := by
      rw [← hcol, not_iff_not]
      constructor
      · exact fun h e => h (.inl (.inl e))
      · rintro h ((e | e) | e)
        · exact h e
        · simpa [BB1, hnh] using htol0
        · simpa [BB1] using htol0
    have hC : ¬ fast0Col tol (CC1 tol m hyb) (.inl (.inl v)) ↔ ∃ e, tol ≤ |m.CC0 e v| := by
      rw [← hcol, not_iff_not]
      constructor
      · intro h e
        have := h (.inl (.inl e))
        simpa [CC1, hin] using this
      · rintro h ((e | e) | e)
        · simpa [CC1, hin] using h e
        · simpa [CC1] using htol0
        · simpa [CC1] using htol0
    rw [hB, hC]
    rfl

open Classical in
theorem dims_eq (vv0 : List (ν ⊕ H)) (shocks : List ε) : dimp tol m hyb vv0 shocks + dimq tol m hyb vv0 shocks =
    ((ySpace vv0 shocks).filter fun y => decide (Placed tol m hyb y)).length := by
  unfold dimp dimq
  change ((ySpace vv0 shocks).filter _).length + ((ySpace vv0 shocks).filter _).length = _
  induction ySpace vv0 shocks with
  | nil => rfl
  | cons y ys ih =>
    simp only [List.filter_cons]
    by_cases hq : inq tol m hyb y
    · have hp : ¬ inp tol m hyb y := fun h => h.2 hq
      have hpl : Placed tol m hyb y := .inl hq
      simp only [hq, hp, hpl, decide_true, decide_false, if_true, if_false, List.length_cons, Bool.false_eq_true]
      omega
    · by_cases hp : inp tol m hyb y
      · have hpl : Placed tol m hyb y := .inr hp
        simp only [hq, hp, hpl, decide_true, decide_false, if_true, if_false, List.length_cons, Bool.false_eq_true]
        omega
      · have hpl : ¬ Placed tol m hyb y := fun h => h.elim hq hp
        simp only [hq, hp, hpl, decide_true, decide_false, if_true, if_false, List.length_cons, Bool.false_eq_true]
        omega

theorem mem_vv {order : List ν} {hybs : List H} (ho : Spec.Enumerates order) (hh : Spec.Enumerates hybs) (w : ν ⊕ H) :
    w ∈ vv tol m hyb (allVars order hybs) ↔ Placed (ε := ε) tol m hyb (.inl w) := by
  have hall : w ∈ allVars order hybs := by
    unfold allVars
    rcases w with v | a
    · exact List.mem_append_left _ (List.mem_map.2 ⟨v, ho.2 v, rfl⟩)
    · exact List.mem_append_right _ (List.mem_map.2 ⟨a, hh.2 a, rfl⟩)
  unfold vv cvv svv Placed
  rw [List.mem_append, List.mem_filter, List.mem_filter]
  simp only [hall, true_and, decide_eq_true_eq]
  tauto

theorem enum_length {α : Type} [Fintype α] [DecidableEq α] {l : List α} (h : Spec.Enumerates l) : l.length = Fintype.card α := by
  rw [← List.toFinset_card_of_nodup h.1, Finset.eq_univ_of_forall fun a => List.mem_toFinset.2 (h.2 a)]
  rfl

/-- **C164.** In a model with one equation fewer than variables and at least one shock: `gen_sys` comes to the solution of the system if and only if every
declared variable occurs in some equation or, lagged, in the constraint; and then `vv` has every declared and every auxiliary variable.  Otherwise
it raises `ValueError`.  So no variable is dropped silently. -/
theorem C164_no_variable_lost (hr : ∀ v, (∃ h, hyb h = v) → inall tol m v) (htol0 : 0 < tol) (htol : tol ≤ 1)
    (hE : Fintype.card E + 1 = Fintype.card ν) {order : List ν} {hybs : List H} {shocks : List ε} (ho : Spec.Enumerates order)
    (hh : Spec.Enumerates hybs) (hs : shocks ≠ []) :
    ((∀ v, Spec.Used tol m v) → ∃ l, genMasked tol m hyb order hybs shocks false = .ok l ∧ ∀ w, w ∈ l) ∧
    (¬ (∀ v, Spec.Used tol m v) → genMasked tol m hyb order hybs shocks false = .error .valueError) := by
  classical
  have hy : (ySpace (allVars order hybs) shocks).length = Fintype.card E + hybs.length + shocks.length + 1 := by
    have := enum_length ho
    simp only [ySpace, allVars, List.length_append, List.length_map]
    omega
  have hpl : ∀ y : Cols ν H ε, Placed tol m hyb y ↔ ∀ v, y = .inl (.inl v) → Spec.Used tol m v := by
    rintro ((v | a) | e)
    · rw [placed_var tol m hyb hr htol0 htol]
      exact ⟨fun h v' hv => by cases hv; exact h, fun h => h v rfl⟩
    · exact ⟨fun _ v hv => by (cases hv), fun _ => placed_aux tol m hyb htol a⟩
    · exact ⟨fun _ v hv => by (cases hv), fun _ => placed_shock tol m hyb htol e⟩
  have hgen : genMasked tol m hyb order hybs shocks false =
      if ((ySpace (allVars order hybs) shocks).filter fun y => decide (Placed tol m hyb y)).length =
          Fintype.card E + hybs.length + shocks.length + 1 then .ok (vv tol m hyb (allVars order hybs)) else .error .valueError := by
    unfold genMasked applyQ
    rw [labels_eq tol m hyb _ shocks hs, dims_eq]
    simp only [Bool.false_eq_true, if_false]
    split_ifs <;> rfl
  constructor
  · intro hu
    refine ⟨vv tol m hyb (allVars order hybs), ?_, fun w => (mem_vv (ε := ε) tol m hyb ho hh w).2 ((hpl _).2 fun v _ => hu v)⟩
    rw [hgen, if_pos]
    rw [List.filter_eq_self.2, hy]
    intro y _
    exact decide_eq_true ((hpl y).2 fun v _ => hu v)
  · intro hu
    push Not at hu
    obtain ⟨v, hv⟩ := hu
    rw [hgen, if_neg]
    intro hl
    rw [← hy] at hl
    have := List.length_filter_eq_length_iff.1 hl (.inl (.inl v)) (by
      unfold ySpace allVars
      exact List.mem_append_left _ (List.mem_map.2 ⟨_, List.mem_append_left _ (List.mem_map.2 ⟨v, ho.2 v, rfl⟩), rfl⟩))
    exact hv ((hpl _).1 (of_decide_eq_true this) v rfl)

/-- With `get_hx_only` the labels are returned without this check, and a variable that is not used is missing in them. -/
theorem C164_hx_only (hr : ∀ v, (∃ h, hyb h = v) → inall tol m v) (htol0 : 0 < tol) (htol : tol ≤ 1)
    {order : List ν} {hybs : List H} {shocks : List ε} (ho : Spec.Enumerates order) (hh : Spec.Enumerates hybs) (hs : shocks ≠ []) :
    ∃ l, genMasked tol m hyb order hybs shocks true = .ok l ∧ ∀ v, .inl v ∈ l ↔ Spec.Used tol m v := by
  refine ⟨vv tol m hyb (allVars order hybs), ?_, fun v => ?_⟩
  · unfold genMasked
    rw [labels_eq tol m hyb _ shocks hs]
    rfl
  · rw [mem_vv (ε := ε) tol m hyb ho hh, placed_var tol m hyb hr htol0 htol]

/-! ## Messages -/

theorem namesFrom_some {α : Type} (name : α → String) (f : α → Bool) (pre post : List α) :
    namesFrom (some ((pre ++ post).map name)) pre.length (post.map f) = .ok ((post.filter f).map name) := by
  induction post generalizing pre with
  | nil => simp [namesFrom]
  | cons a as ih =>
    have h := ih (pre ++ [a])
    rw [List.append_assoc, List.singleton_append, List.length_append, List.length_singleton] at h
    rw [List.map_cons, List.filter_cons]
    cases hf : f a with
    | false => simp only [namesFrom, h, Bool.false_eq_true, if_false]
    | true =>
      have hg : ((pre ++ a :: as).map name)[pre.length]? = some (name a) := by simp
      simp only [namesFrom, hg, h, if_true, List.map_cons]

theorem namesFrom_append_false (vars : Option (List String)) (i : Nat) (l : List Bool) (n : Nat) :
    namesFrom vars i (l ++ List.replicate n false) = namesFrom vars i l := by
  induction l generalizing i with
  | nil =>
    induction n generalizing i with
    | zero => rfl
    | succ n ih =>
      rw [List.replicate_succ]
      simp only [List.nil_append, namesFrom] at ih ⊢
      exact ih (i + 1)
  | cons b bs ih =>
    cases b
    · simp only [List.cons_append, namesFrom, ih]
    · simp only [List.cons_append, namesFrom, ih]

open Classical in
/-- **C165 (partial).** For a model made from a file, `gen_sys` prints with `verbose=2` the names of the variables with a lead, with a lag, with both, and
of those that are not used in any equation, and goes on as without messages. Missing: models made from dictionaries, see `C165_dict_refuted`. -/
theorem C165_messages_partial (hr : ∀ v, (∃ h, hyb h = v) → inall tol m v) (htol0 : 0 < tol) (htol : tol ≤ 1) (name : ν → String)
    (order : List ν) (hybs : List H) (shocks : List ε) :
    genMsgs tol m hyb (some (order.map name)) order hybs shocks = .ok
      ⟨(order.filter fun v => ∃ e, tol ≤ |m.AA0 e v|).map name, (order.filter fun v => ∃ e, tol ≤ |m.CC0 e v|).map name,
        (order.filter fun v => (∃ e, tol ≤ |m.AA0 e v|) ∧ ∃ e, tol ≤ |m.CC0 e v|).map name, (order.filter fun v => ¬ Spec.Used tol m v).map name⟩ ∧
    ∀ hxOnly verbose, genVerbose tol m hyb (some (order.map name)) order hybs shocks hxOnly verbose =
      genMasked tol m hyb order hybs shocks hxOnly := by
  have hn : ∀ f : ν → Bool, namesFrom (some (order.map name)) 0 (order.map f) = .ok ((order.filter f).map name) := fun f =>
    namesFrom_some name f [] order
  have hcol : ∀ (A : Matrix E ν K) (j : ν), (¬ fast0Col tol A j) ↔ ∃ e, tol ≤ |A e j| := by
    intro A j
    unfold fast0Col
    push Not
    rfl
  have hmask : (ySpace (allVars order hybs) shocks).map (fun y => decide (¬ (inq tol m hyb y ∨ inp tol m hyb y))) =
      (order.map fun v => decide (¬ Spec.Used tol m v)) ++ List.replicate (hybs.length + shocks.length) false := by
    unfold ySpace allVars
    simp only [List.map_append, List.map_map]
    rw [List.append_assoc]
    congr 1
    · refine List.map_congr_left fun v _ => ?_
      have := placed_var (ε := ε) tol m hyb hr htol0 htol v
      unfold Placed at this
      simp only [Function.comp, this]
    · rw [← List.replicate_append_replicate]
      congr 1
      · rw [List.eq_replicate_iff]
        refine ⟨by simp, fun b hb => ?_⟩
        obtain ⟨a, _, rfl⟩ := List.mem_map.1 hb
        exact decide_eq_false (not_not.2 (placed_aux tol m hyb htol a))
      · rw [List.eq_replicate_iff]
        refine ⟨by simp, fun b hb => ?_⟩
        obtain ⟨a, _, rfl⟩ := List.mem_map.1 hb
        exact decide_eq_false (not_not.2 (placed_shock tol m hyb htol a))
  have hmsg : genMsgs tol m hyb (some (order.map name)) order hybs shocks = .ok
      ⟨(order.filter fun v => ∃ e, tol ≤ |m.AA0 e v|).map name, (order.filter fun v => ∃ e, tol ≤ |m.CC0 e v|).map name,
        (order.filter fun v => (∃ e, tol ≤ |m.AA0 e v|) ∧ ∃ e, tol ≤ |m.CC0 e v|).map name,
        (order.filter fun v => ¬ Spec.Used tol m v).map name⟩ := by
    unfold genMsgs
    rw [hmask, namesFrom_append_false]
    simp only [hn, inall, hcol]
  refine ⟨hmsg, fun hxOnly verbose => ?_⟩
  unfold genVerbose
  rw [hmsg]
  split_ifs <;> rfl

theorem namesFrom_none (i : Nat) (l : List Bool) : namesFrom none i l = if true ∈ l then .error .attributeError else .ok [] := by
  induction l generalizing i with
  | nil => rfl
  | cons b bs ih =>
    cases b
    · simp only [namesFrom, ih, List.mem_cons, Bool.true_eq_false, false_or]
    · simp [namesFrom]

/-- **C165 (fails for models from dictionaries).** These have no attribute `variables`; `gen_sys_from_dict` with `verbose=2` fails for every model in which some
variable has a lead or a lag. -/
theorem C165_dict_refuted {order : List ν} {hybs : List H} {shocks : List ε} (ho : Spec.Enumerates order) {v : ν} {e : E}
    (hv : tol ≤ |m.AA0 e v| ∨ tol ≤ |m.CC0 e v|) (hxOnly : Bool) {verbose : Nat} (h2 : 1 < verbose) :
    genVerbose tol m hyb none order hybs shocks hxOnly verbose = .error .attributeError := by
  classical
  unfold genVerbose
  rw [if_pos h2]
  have key : genMsgs tol m hyb none order hybs shocks = .error .attributeError := by
    unfold genMsgs
    simp only [namesFrom_none]
    by_cases h1 : true ∈ order.map fun v => decide (¬ fast0Col tol m.AA0 v)
    · simp only [if_pos h1]
    · simp only [if_neg h1]
      rw [if_pos]
      rcases hv with hv | hv
      · have hnf : ¬ fast0Col tol m.AA0 v := fun hc => absurd (hc e) (not_lt.2 hv)
        exact absurd (List.mem_map.2 ⟨v, ho.2 v, by simp only [hnf, not_false_eq_true, decide_true]⟩) h1
      · have hnf : ¬ fast0Col tol m.CC0 v := fun hc => absurd (hc e) (not_lt.2 hv)
        exact List.mem_map.2 ⟨v, ho.2 v, by simp only [hnf, not_false_eq_true, decide_true]⟩
  rw [key]

end

/-! ## Cases that meet the hypotheses -/

/-- `y = 1/2 y(-1) + e`, and the constraint is on `r = y`, which has no effect on `y`. -/
def MaskedEx.inp : Input (Fin 1) (Fin 2) (Fin 1) (Fin 1) Rat :=
  Input.ofYaml (A := 0) (B := !![1, 0]) (C := !![-1/2, 0]) (D := !![-1]) (cvar := 1) (rb := ![1, 0]) (rc := 0) (rd := 0) (xbar := -1)
    (ZZ0 := !![1, 0]) (ZZ1 := 0)

theorem SliceEx.used (v : Fin 2) : Spec.Used (1/1000) SliceEx.inp v := by
  right; left
  refine ⟨0, ?_⟩
  fin_cases v
  · simp [SliceEx.inp, Input.ofYaml]
    norm_num
  · simp [SliceEx.inp, Input.ofYaml]
    norm_num

/-- **C164**: a constrained variable without any effect is a variable that is not used; with `y = 1/2 y(-1) - r/4 + e` it is used. -/
theorem C164_hypotheses_met [DecidablePred (inall (1/1000) MaskedEx.inp)] [DecidablePred (inall (1/1000) SliceEx.inp)] :
    ¬ Spec.Used (1/1000) MaskedEx.inp 1 ∧ Spec.Used (1/1000) MaskedEx.inp 0 ∧
    genMasked (1/1000) MaskedEx.inp (Empty.elim : Empty → Fin 2) [0, 1] [] [0] false = .error .valueError ∧
    (∀ v, Spec.Used (1/1000) SliceEx.inp v) ∧
    (∃ l, genMasked (1/1000) SliceEx.inp (Empty.elim : Empty → Fin 2) [0, 1] [] [0, 1] false = .ok l ∧ ∀ w, w ∈ l) := by
  have n1 : ¬ Spec.Used (1/1000) MaskedEx.inp 1 := by
    rintro (⟨e, h⟩ | ⟨e, h⟩ | ⟨e, h⟩ | h)
    · simp [MaskedEx.inp, Input.ofYaml] at h
      norm_num at h
    · fin_cases e
      simp [MaskedEx.inp, Input.ofYaml] at h
      norm_num at h
    · fin_cases e
      simp [MaskedEx.inp, Input.ofYaml] at h
      norm_num at h
    · simp [MaskedEx.inp, Input.ofYaml] at h
      norm_num at h
  have en2 : Spec.Enumerates ([0, 1] : List (Fin 2)) := ⟨by decide, fun a => by fin_cases a <;> simp⟩
  have enE : Spec.Enumerates ([] : List Empty) := ⟨List.nodup_nil, fun a => a.elim⟩
  refine ⟨n1, ?_, ?_, SliceEx.used, ?_⟩
  · right; left
    refine ⟨0, ?_⟩
    simp [MaskedEx.inp, Input.ofYaml]
    norm_num
  · exact (C164_no_variable_lost (1/1000) MaskedEx.inp Empty.elim (by rintro v ⟨h, _⟩; exact h.elim) (by norm_num) (by norm_num) (by simp) en2 enE
      (by simp)).2 fun h => n1 (h 1)
  · exact (C164_no_variable_lost (1/1000) SliceEx.inp Empty.elim (by rintro v ⟨h, _⟩; exact h.elim) (by norm_num) (by norm_num) (by simp) en2 enE
      (by simp)).1 SliceEx.used

/-- **C165**: the model of C98 has a variable with a lag, so that the dictionary with the same matrices cannot be solved with `verbose=2`. -/
theorem C165_hypotheses_met [DecidablePred (inall (1/1000) SliceEx.inp)] :
    genVerbose (1/1000) SliceEx.inp (Empty.elim : Empty → Fin 2) none [0, 1] [] [0, 1] false 2 = .error .attributeError ∧
    ∃ l, genVerbose (1/1000) SliceEx.inp (Empty.elim : Empty → Fin 2) (some ["x", "c"]) [0, 1] [] [0, 1] false 2 = .ok l ∧ ∀ w, w ∈ l := by
  classical
  have en2 : Spec.Enumerates ([0, 1] : List (Fin 2)) := ⟨by decide, fun a => by fin_cases a <;> simp⟩
  refine ⟨C165_dict_refuted (1/1000) SliceEx.inp _ en2 (v := 0) (e := 0) (.inr ?_) false (by omega), ?_⟩
  · simp [SliceEx.inp, Input.ofYaml]
    norm_num
  · have := (C165_messages_partial (1/1000) SliceEx.inp Empty.elim (by rintro v ⟨h, _⟩; exact h.elim) (by norm_num) (by norm_num)
      (fun v : Fin 2 => if v = 0 then "x" else "c") [0, 1] [] [0, 1]).2 false 2
    rw [show ([0, 1] : List (Fin 2)).map (fun v => if v = 0 then "x" else "c") = ["x", "c"] from by decide] at this
    rw [this]
    exact (C164_no_variable_lost (1/1000) SliceEx.inp Empty.elim (by rintro v ⟨h, _⟩; exact h.elim) (by norm_num) (by norm_num) (by simp) en2
      ⟨List.nodup_nil, fun a => a.elim⟩ (by simp)).1 SliceEx.used
end Pydsge
