import Verif.Model.Slices
import Verif.Props.Calls
import Verif.Props.Static

/-!
# C98: positions and labels; C99: models without shocks
-/

set_option autoImplicit false
set_option linter.unusedSectionVars false
set_option linter.unusedSimpArgs false

namespace Pydsge

open Pydsge.GenSys Pydsge.Slices

section
variable {E ν ε o H K : Type} [Fintype E] [Fintype ν] [Fintype ε] [Fintype o] [DecidableEq E] [DecidableEq ν] [DecidableEq ε] [DecidableEq H]
  [Field K] [LinearOrder K] (tol : K) (m : Input E ν ε o K) (hyb : H → ν) [DecidablePred (inall tol m)]

theorem pick_filter {α : Type} (f : α → Bool) (xs : List α) : pick xs (xs.map f) = .ok (xs.filter f) := by
  unfold pick
  rw [if_pos (by simp)]
  congr 1
  induction xs with
  | nil => rfl
  | cons x xs ih =>
    simp only [List.map_cons, List.zip_cons_cons, List.filter_cons]
    cases h : f x <;> simp [h, ih]

theorem sliceTo_append {α : Type} (xs ys : List α) (h : ys ≠ []) : sliceTo (xs ++ ys) (-(ys.length : Int)) = xs := by
  have : 0 < ys.length := List.length_pos_of_ne_nil h
  unfold sliceTo
  rw [if_neg (by omega), neg_neg, Int.toNat_natCast, List.length_append, Nat.add_sub_cancel, List.take_left]

theorem labels_eq (vv0 : List (ν ⊕ H)) (shocks : List ε) (hs : shocks ≠ []) :
    labels tol m hyb vv0 shocks = .ok (vv tol m hyb vv0) := by
  classical
  have h1 : sliceTo (qMask tol m hyb vv0 shocks) (-(shocks.length : Int)) = vv0.map fun w => decide (inq tol m hyb (.inl w)) := by
    unfold qMask ySpace
    rw [List.map_append, List.map_map]
    have := sliceTo_append (vv0.map fun w => decide (inq tol m hyb (.inl w))) ((shocks.map Sum.inr).map fun y : Cols ν H ε => decide (inq tol m hyb y)) (by simpa using hs)
    simp only [List.length_map] at this
    exact this
  have h2 : sliceTo (pMask tol m hyb vv0 shocks) (-(shocks.length : Int)) = vv0.map fun w => decide (inp tol m hyb (.inl w)) := by
    unfold pMask ySpace
    rw [List.map_append, List.map_map]
    have := sliceTo_append (vv0.map fun w => decide (inp tol m hyb (.inl w))) ((shocks.map Sum.inr).map fun y : Cols ν H ε => decide (inp tol m hyb y)) (by simpa using hs)
    simp only [List.length_map] at this
    exact this
  unfold labels
  rw [h1, h2, pick_filter, pick_filter]
  simp only [vv, cvv, svv]

/-- **C98 (partial).** If there are shocks, and every shock enters some equation: at each position of the state that the transition returns stands the variable that `vv`
names at this position, and (if there are states, or no controls) the vector handed to the tables has at each position what the tables have there.

Missing: shocks that enter no equation (`C98_labels_refuted`). -/
theorem C98_labels_partial (vv0 : List (ν ⊕ H)) (shocks : List ε) (hs : shocks ≠ []) (hq : ∀ e ∈ shocks, inq tol m hyb (.inr e)) :
    ∃ l, labels tol m hyb vv0 shocks = .ok l ∧ newOrder tol m hyb vv0 shocks = l.map .inl ∧
      (svv tol m hyb vv0 ≠ [] ∨ cvv tol m hyb vv0 = [] → inOrder tol m hyb vv0 shocks l = qOrder tol m hyb vv0 shocks) := by
  classical
  have hqo : qOrder tol m hyb vv0 shocks = (svv tol m hyb vv0).map .inl ++ shocks.map .inr := by
    unfold qOrder ySpace svv
    rw [List.filter_append, List.filter_map]
    congr 1
    rw [List.filter_eq_self]
    intro y hy
    obtain ⟨e, he, rfl⟩ := List.mem_map.1 hy
    simpa using hq e he
  have hpo : pOrder tol m hyb vv0 shocks = (cvv tol m hyb vv0).map .inl := by
    unfold pOrder ySpace cvv
    rw [List.filter_append, List.filter_map]
    have : (shocks.map (Sum.inr : ε → Cols ν H ε)).filter (fun y => decide (inp tol m hyb y)) = [] := by
      rw [List.filter_eq_nil_iff]
      intro y hy
      obtain ⟨e, he, rfl⟩ := List.mem_map.1 hy
      simp only [decide_eq_true_eq]
      exact fun h => h.2 (hq e he)
    rw [this, List.append_nil]
    rfl
  refine ⟨vv tol m hyb vv0, labels_eq tol m hyb vv0 shocks hs, ?_, ?_⟩
  · unfold newOrder
    have := sliceTo_append ((svv tol m hyb vv0).map (Sum.inl : ν ⊕ H → Cols ν H ε)) (shocks.map .inr) (by simpa using hs)
    rw [List.length_map] at this
    rw [hqo, hpo, this, vv, List.map_append]
  · intro h
    unfold inOrder
    have h3 := (C88_slice_of_states (cvv tol m hyb vv0) (svv tol m hyb vv0) shocks.length).2 h
    rw [hqo, List.length_append, List.length_map, List.length_map]
    unfold vv
    rw [h3]

/-- A shock that enters no equation is put among the controls. -/
theorem dead_shock_in_p (htol : tol ≤ 1) [IsStrictOrderedRing K] (e : ε) (h : ¬ inq tol m hyb (.inr e)) : inp tol m hyb (.inr e) := by
  refine ⟨Or.inr fun hc => ?_, h⟩
  have := hc (.inr e)
  simp [BB1] at this
  exact absurd htol (not_le.2 this)

/-- With a shock that enters no equation (for whatever reason, also because a parameter is zero), the positions do not fit the labels: the entry after the controls is this
shock, where `vv` has the first state. -/
theorem dead_shock_shifts (htol : tol ≤ 1) [IsStrictOrderedRing K] (vv0 : List (ν ⊕ H)) (shocks : List ε) (e : ε) (he : e ∈ shocks)
    (h : ¬ inq tol m hyb (.inr e)) :
    ∃ l, labels tol m hyb vv0 shocks = .ok l ∧ newOrder tol m hyb vv0 shocks ≠ l.map .inl ∧
      (∃ e' : ε, (newOrder tol m hyb vv0 shocks)[(cvv tol m hyb vv0).length]? = some (.inr e')) ∧
      l[(cvv tol m hyb vv0).length]? = (svv tol m hyb vv0).head? := by
  classical
  have hs : shocks ≠ [] := by rintro rfl; simp at he
  have hpo : ∃ e' rest, pOrder tol m hyb vv0 shocks = (cvv tol m hyb vv0).map .inl ++ (.inr e' :: rest) := by
    unfold pOrder ySpace cvv
    rw [List.filter_append, List.filter_map]
    have hne : (shocks.map (Sum.inr : ε → Cols ν H ε)).filter (fun y => decide (inp tol m hyb y)) ≠ [] := by
      intro h0
      rw [List.filter_eq_nil_iff] at h0
      exact h0 (.inr e) (List.mem_map.2 ⟨e, he, rfl⟩) (by simpa using dead_shock_in_p tol m hyb htol e h)
    obtain ⟨y, rest, hy⟩ := List.exists_cons_of_ne_nil hne
    have hmem : y ∈ (shocks.map (Sum.inr : ε → Cols ν H ε)) := by
      have : y ∈ (shocks.map (Sum.inr : ε → Cols ν H ε)).filter (fun y => decide (inp tol m hyb y)) := by rw [hy]; simp
      exact (List.mem_filter.1 this).1
    obtain ⟨e', _, rfl⟩ := List.mem_map.1 hmem
    refine ⟨e', rest, ?_⟩
    rw [hy]
    rfl
  obtain ⟨e', rest, hpo⟩ := hpo
  have hnew : (newOrder tol m hyb vv0 shocks)[(cvv tol m hyb vv0).length]? = some (.inr e') := by
    unfold newOrder
    rw [hpo]
    simp
  refine ⟨vv tol m hyb vv0, labels_eq tol m hyb vv0 shocks hs, ?_, ⟨e', hnew⟩, ?_⟩
  · intro hc
    rw [hc, List.getElem?_map] at hnew
    cases hx : (vv tol m hyb vv0)[(cvv tol m hyb vv0).length]? with
    | none => simp [hx] at hnew
    | some w => simp [hx] at hnew
  · unfold vv
    rw [List.getElem?_append_right (le_refl _), Nat.sub_self, List.head?_eq_getElem?]

/-- **C98**, exactly when: positions and labels line up if and only if every shock enters some equation. -/
theorem C98_labels_iff (htol : tol ≤ 1) [IsStrictOrderedRing K] (vv0 : List (ν ⊕ H)) (shocks : List ε) (hs : shocks ≠ []) :
    (∃ l, labels tol m hyb vv0 shocks = .ok l ∧ newOrder tol m hyb vv0 shocks = l.map .inl) ↔ ∀ e ∈ shocks, inq tol m hyb (.inr e) := by
  constructor
  · rintro ⟨l, h1, h2⟩ e he
    by_contra hc
    obtain ⟨l', h1', h2', _⟩ := dead_shock_shifts tol m hyb htol vv0 shocks e he hc
    rw [h1] at h1'
    cases h1'
    exact h2' h2
  · intro hq
    obtain ⟨l, h1, h2, _⟩ := C98_labels_partial tol m hyb vv0 shocks hs hq
    exact ⟨l, h1, h2⟩

end

/-- The model of C96 with a second shock that enters no equation. -/
def SliceEx.inp : Input (Fin 1) (Fin 2) (Fin 2) (Fin 1) Rat :=
  Input.ofYaml (A := 0) (B := !![1, -1/4]) (C := !![-1/2, 0]) (D := !![-1, 0]) (cvar := 1) (rb := ![1, 0]) (rc := 0) (rd := 0) (xbar := -1)
    (ZZ0 := !![1, 0]) (ZZ1 := 0)

theorem SliceEx.dead [DecidablePred (inall (1/1000) SliceEx.inp)] : ¬ inq (H := Empty) (1/1000) SliceEx.inp Empty.elim (.inr 1) := by
  rintro (h | h)
  · refine h fun r => ?_
    rcases r with (e | e) | e
    · fin_cases e
      simp [CC1, SliceEx.inp, Input.ofYaml]
    · exact e.elim
    · simp [CC1]
  · exact h (by simp [fast0, fcY, SliceEx.inp, Input.ofYaml])

/-- **C98 (refuted).** Whenever a shock enters no equation, the state returned by the transition has a shock where `vv` names the first state; and there are such models.
As an example, a model with `x1 = x1(-1)/2 + e1`, `x2 = x2(-1)/4`, `c = x1`, and a second shock without effect: the tables have `q = (x1, x2, e1)`, `p = (c, e2)`; the response to
`e1 = 1` is zero for all variables, though `c` and `x1` should be one. -/
theorem C98_labels_refuted [DecidablePred (inall (1/1000) SliceEx.inp)] :
    (∃ (l : List (Fin 2 ⊕ Empty)), labels (1/1000) SliceEx.inp Empty.elim [.inl 0, .inl 1] [0, 1] = .ok l ∧
      newOrder (1/1000) SliceEx.inp Empty.elim [.inl 0, .inl 1] [0, 1] ≠ l.map .inl) ∧
    (let pf : List Rat → List Rat := fun s => match s with
      | [x1, _, e1] => [x1 / 2 + e1, 0]
      | _ => []
     let qf : List Rat → List Rat := fun s => match s with
      | [x1, x2, e1] => [x1 / 2 + e1, x2 / 4, 0]
      | _ => []
     stepList pf qf 3 2 [0, 0, 0] [1, 0] = [0, 0, 0]) := by
  constructor
  · obtain ⟨l, h1, h2, _⟩ := dead_shock_shifts (1/1000) SliceEx.inp Empty.elim (by norm_num) [.inl 0, .inl 1] [0, 1] 1 (by simp) SliceEx.dead
    exact ⟨l, h1, h2⟩
  · decide +kernel

/-- The hypotheses of the partial theorem are met. -/
theorem C98_hypotheses_met [DecidablePred (inall (1/1000) (OrderEx.inp (1/2) 0))] :
    (∀ e ∈ ([0] : List (Fin 1)), inq (H := Empty) (1/1000) (OrderEx.inp (1/2) 0) Empty.elim (.inr e)) ∧
    svv (H := Empty) (1/1000) (OrderEx.inp (1/2) 0) Empty.elim [.inl 0, .inl 1] ≠ [] := by
  constructor
  · intro e he
    left
    intro h
    have := h (.inl (.inl 0))
    fin_cases e
    norm_num [CC1, OrderEx.inp, Input.ofYaml] at this
  · unfold svv
    simp only [OrderEx.inq_iff, List.filter_cons, List.filter_nil]
    norm_num [abs_of_pos]

/-! ## C99 -/

section
variable {E ν ε o H K : Type} [Fintype E] [Fintype ν] [Fintype ε] [Fintype o] [DecidableEq E] [DecidableEq ν] [DecidableEq ε] [DecidableEq H]
  [Field K] [LinearOrder K] (tol : K) (m : Input E ν ε o K) (hyb : H → ν) [DecidablePred (inall tol m)]

/-- **C99 (refuted).** No model without shocks can be solved: `vv0[inq[:-0]]` selects with an empty mask. -/
theorem C99_no_shocks_refuted (vv0 : List (ν ⊕ H)) (hv : vv0 ≠ []) : labels tol m hyb vv0 ([] : List ε) = .error .indexError := by
  unfold labels pick sliceTo
  simp only [List.length_nil, Nat.cast_zero, neg_zero, le_refl, if_true, Int.toNat_zero, List.take_zero]
  rw [if_neg (by
    have := List.length_pos_of_ne_nil hv
    omega)]

/-- **C99 (partial).** With at least one shock, the masks can be applied. -/
theorem C99_no_shocks_partial (vv0 : List (ν ⊕ H)) (shocks : List ε) (hs : shocks ≠ []) : ∃ l, labels tol m hyb vv0 shocks = .ok l :=
  ⟨_, labels_eq tol m hyb vv0 shocks hs⟩

end
end Pydsge
