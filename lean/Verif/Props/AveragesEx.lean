import Verif.Props.Averages

/-!
# C189: a model that meets the hypotheses
-/

set_option autoImplicit false
set_option linter.unusedSectionVars false
set_option linter.unusedSimpArgs false

namespace Pydsge

open Matrix Pydsge.Engine Pydsge.Spec Pydsge.Tools Pydsge.GenSys

namespace Ex17

variable {b : Rat} [hneg : Fact (b < 0)] {lMax kMax : Nat} {sched : Nat → List Nat} {mod : Model (Fin 1) (Fin 1) (Fin 1) (Fin 1) Rat}

/-- without a binding constraint -/
theorem run_slack (h : Succeeded (layB b) orc lMax kMax sched mod) (hk1 : 1 ≤ kMax) (hL : lMax + 1 ≤ 999) {st : Fin 1 ⊕ Fin 1 → Rat}
    {eps : Fin 1 → Rat} (h1 : 8/3 * b < st (.inr 0) + eps 0) :
    ∃ r, tFunc mod st eps .none false = .ok r ∧ r.flag = 0 ∧ r.l = 0 ∧ r.k = 0 ∧ r.state (.inr 0) = 1/2 * (st (.inr 0) + eps 0) := by
  obtain ⟨c, hm⟩ := genSys_ok h.perm h.gen
  have hz := h.states
  obtain ⟨X, hX⟩ := linear_expectedPath hm st eps
  have le := fun s => (rule_le_iff h (Nat.zero_le _) (Nat.zero_le _) hX s).1
  refine ⟨⟨X 0, 0, 0, 0⟩, ?_, rfl, rfl, rfl, ?_⟩
  · refine finds_general h hk1 hL lagsNotExpected self_ne (Nat.zero_le _) (Nat.zero_le _) hX
      ⟨fun s hs => by omega, fun s hs => by unfold BindsAt at hs; omega, fun s _ => ?_⟩ (fun hk => by omega) (fun _ => rfl)
    show b < _
    rw [rule_eq, ← not_le, le, not_le]
    have := base_above h (Nat.zero_le _) (Nat.zero_le _) hX (s := 0) (by rw [base_zero]; exact h1) s
    rwa [Nat.zero_add] at this
  · have := path_slack h (Nat.zero_le _) (Nat.zero_le _) hX (s := 0) (by unfold BindsAt; omega)
    rw [base_zero] at this
    rw [← this]
    exact (val_y (X 0)).symm

end Ex17

/-- **C189**: the hypotheses are met, for all sizes of tables. After the shock `-5` the constraint binds for two periods, after the shock `3` and after the
average `-1` of the two it does not bind. The average of `y` over the two is `-13/12`, and `-1/2` after the average shock. -/
theorem C189_hypotheses_met (lMax kMax : Nat) (hk : 2 ≤ kMax) (hL : lMax + 1 ≤ 999) : ∃ mod, Succeeded Ex17.lay Ex17.orc lMax kMax (serial kMax) mod ∧
    Spec.LagsNotExpected Ex17.decl ∧ Ex17.decl.rb Ex17.decl.cvar ≠ 1 ∧ Spec.NoReversalOf Ex17.lay mod ∧ Spec.LowersElsewhere Ex17.lay mod ∧
    (∀ v, v = 0 → Spec.Lowers Ex17.lay mod v 0) ∧ Spec.LinearOrders Ex17.lay mod (fun v => v = 0) (fun _ => False) 0 0 ∧
    Spec.FlagMeansEquilibrium Ex17.lay mod ∧ Ex17.decl.xbar ≤ 0 ∧ (∀ i ∈ (Finset.univ : Finset (Fin 2)), (0 : Rat) ≤ (fun _ => 1/2) i) ∧
    ∑ i : Fin 2, (fun _ => (1/2 : Rat)) i = 1 ∧
    ∃ (es : List (Fin 2 → Fin 1 → Rat)) (res : Fin 2 → SimRes (Fin 1) (Fin 1) Rat) (res0 : SimRes (Fin 1) (Fin 1) Rat),
      (∀ i, simLoop mod false 0 (es.map fun e => e i) = .ok (res i) ∧ (res i).flag = 0) ∧
      simLoop mod false 0 (es.map fun e => ∑ i, (1/2 : Rat) • e i) = .ok res0 ∧ res0.flag = 0 ∧
      (res 0).LK = [(0, 2)] ∧ (res 1).LK = [(0, 0)] ∧ res0.LK = [(0, 0)] ∧
      (res 0).X.map (fun s => s (.inr 0)) = [0, -11/3] ∧ (res 1).X.map (fun s => s (.inr 0)) = [0, 3/2] ∧
      res0.X.map (fun s => s (.inr 0)) = [0, -1/2] := by
  obtain ⟨mod, h⟩ := Ex17.succeeds (b := -1) lMax kMax (fun _ _ => List.Perm.refl _)
  obtain ⟨r, a1, a2, a3, a4, a5⟩ := Ex17.run h (k := 2) (by omega) hk hL (st := 0) (eps := fun _ => -5) (by norm_num) (by norm_num)
  obtain ⟨r', b1, b2, b3, b4, b5⟩ := Ex17.run_slack h (by omega) hL (st := 0) (eps := fun _ => 3) (by norm_num)
  obtain ⟨r0, c1, c2, c3, c4, c5⟩ := Ex17.run_slack h (by omega) hL (st := 0) (eps := fun _ => -1) (by norm_num)
  obtain ⟨rs, rl, rk, rf⟩ := r
  obtain ⟨rs', rl', rk', rf'⟩ := r'
  obtain ⟨rs0, rl0, rk0, rf0⟩ := r0
  simp only at a2 a3 a4 a5 b2 b3 b4 b5 c2 c3 c4 c5
  subst a2 a3 a4 b2 b3 b4 c2 c3 c4
  have hav : (∑ i : Fin 2, (1/2 : Rat) • ((fun i _ => if i = 0 then -5 else 3 : Fin 2 → Fin 1 → Rat) i)) = fun _ => -1 := by
    funext j
    simp [Fin.sum_univ_two]
    norm_num
  refine ⟨mod, h, Ex17.lagsNotExpected, Ex17.self_ne, Ex17.noReversalOf, Ex17.lowersElsewhere, ?_, Ex17.linearOrders h le_rfl,
    Ex17.flagMeansEquilibrium h (by omega), by norm_num [Ex17.decl, Ex17.declB], by norm_num, by norm_num [Fin.sum_univ_two],
    [fun i _ => if i = 0 then -5 else 3], fun i => if i = 0 then ⟨[0, rs], [(0, 2)], 0⟩ else ⟨[0, rs'], [(0, 0)], 0⟩,
    ⟨[0, rs0], [(0, 0)], 0⟩, ?_, ?_, rfl, rfl, rfl, rfl, ?_, ?_, ?_⟩
  · rintro v rfl
    exact Ex17.lowers_y 0
  · intro i
    fin_cases i
    · refine ⟨?_, rfl⟩
      show simLoop mod false 0 [fun _ => -5] = _
      simp only [simLoop, a1]
      rfl
    · refine ⟨?_, rfl⟩
      show simLoop mod false 0 [fun _ => 3] = _
      simp only [simLoop, b1]
      rfl
  · rw [List.map_cons, List.map_nil, hav]
    simp only [simLoop, c1]
    rfl
  · show [(0 : Rat), rs (.inr 0)] = _
    rw [a5]
    norm_num
  · show [(0 : Rat), rs' (.inr 0)] = _
    rw [b5]
    norm_num
  · show [(0 : Rat), rs0 (.inr 0)] = _
    rw [c5]
    norm_num

end Pydsge
