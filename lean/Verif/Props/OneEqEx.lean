import Verif.Props.OneEq
import Verif.Props.TimeConsEx
import Verif.Examples.Ex12

/-!
# C161: a case that meets the hypotheses, and a model with two equilibria
-/

set_option autoImplicit false
set_option linter.unusedSimpArgs false
set_option linter.unusedSectionVars false

namespace Pydsge

open Matrix Pydsge.Engine Pydsge.Spec Pydsge.Tools Pydsge.GenSys

/-- the sequence with one value before it -/
def lag1 (a : Rat) (f : Nat → Rat) : Nat → Rat
  | 0 => a
  | s + 1 => f s

namespace Ex1

variable {lMax kMax : Nat} {sched : Nat → List Nat} {mod : Model (Fin 1) (Fin 1) (Fin 1) (Fin 1) Rat}

/-- the linear solution in this model -/
theorem joins_iff (h : Succeeded lay orc lMax kMax sched mod) {st : Fin 1 ⊕ Fin 1 → Rat} {eps : Fin 1 → Rat} {x : Nat → Fin 2 → Rat} {n : Nat} :
    Spec.JoinsLinear lay mod st eps x n ↔ ∀ s, n ≤ s →
      x s 0 = 1/2 * lag1 (st (.inr 0)) (fun s => x s 0) s + 2/3 * shockAt eps s 0 ∧ x s 1 = x s 0 := by
  obtain ⟨c, hm⟩ := genSys_ok h.perm h.gen
  have hkl := hm.kl
  simp only [orc, Except.ok.injEq, Prod.mk.injEq] at hkl
  have hp : ∀ s, prev st (fun s => stateOf lay (x s)) s (.inr 0) = lag1 (st (.inr 0)) (fun s => x s 0) s := by
    intro s
    cases s <;> rfl
  refine forall_congr' fun s => forall_congr' fun _ => ?_
  rw [← tFunc_linear, tFunc_linear_eq h, ← hkl.1, ← hkl.2]
  constructor
  · rintro ⟨r, h1, h2⟩
    cases h1
    have e0 := h2 0
    have e1 := h2 1
    rw [val_y] at e0
    rw [val_r] at e1
    simp [mulVec, dotProduct, Fintype.sum_sum_type, lam, omg, q0Of, hp] at e0 e1
    rw [e0, e1]
    exact ⟨by ring, by ring⟩
  · rintro ⟨h1, h2⟩
    refine ⟨_, rfl, fun v => ?_⟩
    fin_cases v
    · show x s 0 = lay.val _ (.inl 0)
      rw [val_y, h1]
      simp [mulVec, dotProduct, Fintype.sum_sum_type, lam, omg, q0Of, hp]
    · show x s 1 = lay.val _ (.inl 1)
      rw [val_r, h2, h1]
      simp [mulVec, dotProduct, Fintype.sum_sum_type, lam, omg, q0Of, hp]

theorem eqs_iff {xl : Fin 2 → Rat} {eps : Fin 1 → Rat} {x : Nat → Fin 2 → Rat} {s : Nat} :
    EqsHold decl xl eps x s ↔ x (s + 1) 1 + x s 0 - 3/4 * lag1 (xl 0) (fun s => x s 0) s - shockAt eps s 0 = 0 := by
  have hp : prev xl x s 0 = lag1 (xl 0) (fun s => x s 0) s := by cases s <;> rfl
  rw [← hp]
  constructor
  · intro hh
    have := congrFun hh 0
    simp [declB, mulVec, dotProduct, Fin.sum_univ_two] at this
    linarith
  · intro hh
    funext i
    obtain rfl : i = 0 := Subsingleton.elim _ _
    simp [declB, mulVec, dotProduct, Fin.sum_univ_two]
    linarith

theorem not_eq {xl : Fin 2 → Rat} {eps : Fin 1 → Rat} {x : Nat → Fin 2 → Rat} {s : Nat} : notional decl xl eps x s = x s 0 := by
  simp [notional, declB, dotProduct, Fin.sum_univ_two]

theorem ratio_nonneg {r y : Rat} (h : (r - y) * r ≤ 0) : ∃ θ : Rat, 0 ≤ θ ∧ r = θ * y := by
  by_cases hy : y = 0
  · subst hy
    exact ⟨0, le_rfl, by nlinarith⟩
  · refine ⟨r / y, ?_, by field_simp⟩
    by_contra hn
    push Not at hn
    have h1 : r = r / y * y := by field_simp
    generalize r / y = θ at *
    subst h1
    have : 0 < y * y := mul_self_pos.2 hy
    have h2 : (θ * y - y) * (θ * y) = (θ * θ - θ) * (y * y) := by ring
    have h3 : 0 < θ * θ - θ := by nlinarith
    rw [h2] at h
    exact absurd h (not_le.2 (mul_pos h3 this))

/-- announced disturbances do not reverse in this model -/
theorem noReversal (h : Succeeded lay orc lMax kMax sched mod) : Spec.NoReversal lay mod := by
  intro d w n he hc hj hw
  rw [joins_iff h] at hj
  have he : ∀ s, d (s + 1) 1 + d s 0 - 3/4 * lag1 0 (fun s => d s 0) s = 0 := by
    intro s
    have := eqs_iff.1 (he s)
    rw [shockAt_zero] at this
    simpa using this
  have hth : ∀ s, ∃ θ : Rat, 0 ≤ θ ∧ d s 1 = θ * d s 0 := by
    intro s
    have h1 := hc s
    have h2 := hw s
    rw [not_eq] at h1
    change d s 1 = _ at h1
    change w s * d s 1 ≤ 0 at h2
    refine ratio_nonneg ?_
    rwa [show d s 1 - d s 0 = w s by linarith]
  have key : ∀ j s, n ≤ s + j → ∃ α : Rat, 0 ≤ α ∧ d s 0 = α * lag1 0 (fun s => d s 0) s := by
    intro j
    induction j with
    | zero =>
      intro s hs
      have := (hj s hs).1
      rw [shockAt_zero] at this
      exact ⟨1/2, by norm_num, by simpa using this⟩
    | succ j ih =>
      intro s hs
      obtain ⟨α, a1, a2⟩ := ih (s + 1) (by omega)
      obtain ⟨θ, t1, t2⟩ := hth (s + 1)
      have h1 := he s
      simp only [lag1] at a2
      rw [t2, a2] at h1
      have hpos : 0 < 1 + θ * α := by positivity
      refine ⟨3/4 / (1 + θ * α), by positivity, ?_⟩
      rw [div_mul_eq_mul_div, eq_div_iff hpos.ne']
      linarith
  have hy : ∀ s, d s 0 = 0 := by
    intro s
    induction s with
    | zero =>
      obtain ⟨α, _, a2⟩ := key n 0 (by omega)
      simpa [lag1] using a2
    | succ s ih =>
      obtain ⟨α, _, a2⟩ := key n (s + 1) (by omega)
      simp only [lag1, ih, mul_zero] at a2
      exact a2
  funext s v
  fin_cases v
  · exact hy s
  · obtain ⟨θ, _, t2⟩ := hth s
    rw [hy, mul_zero] at t2
    exact t2

end Ex1

/-- **C161**: the hypotheses are met by a search that finds a binding constraint. -/
theorem C161_hypotheses_met {lMax kMax : Nat} {sched : Nat → List Nat} {mod : Model (Fin 1) (Fin 1) (Fin 1) (Fin 1) Rat}
    (h : Succeeded Ex1.lay Ex1.orc lMax kMax sched mod) (hk : 1 ≤ kMax) (hL : lMax + 1 ≤ 999) :
    Spec.NoReversal Ex1.lay mod ∧ ∃ r X, tFunc mod 0 (fun _ => -9/4) .none false = .ok r ∧ r.flag = 0 ∧ r.l = 0 ∧ r.k = 1 ∧
      ExpectedPath mod r.l r.k 0 (fun _ => -9/4) X ∧ r.state = X 0 ∧
      Spec.Equilibrium Ex1.decl (lagVal Ex1.lay (0 : Fin 1 ⊕ Fin 1 → Rat)) (fun _ => -9/4) (fun s v => Ex1.lay.val (X s) (.inl v)) ∧
      ∀ (x : Nat → Fin 2 → Rat) (n : Nat), Spec.Equilibrium Ex1.decl (lagVal Ex1.lay (0 : Fin 1 ⊕ Fin 1 → Rat)) (fun _ => -9/4) x →
        Spec.JoinsLinear Ex1.lay mod 0 (fun _ => -9/4) x n → x 0 1 = -1 ∧ ∀ s, x s 0 = -3/2 * (1/2) ^ s := by
  obtain ⟨r, g1, g2, g3, g4, g5, g6⟩ := Ex1.binding_run lMax kMax hk hL h
  obtain ⟨X, hX⟩ := (C15_elapsed_spell_reproduces_expected_path h (noLagFwd_of_rc rfl) (Nat.zero_le lMax) hk 0 (fun _ => -9/4)).1
  obtain ⟨x, hx1, hx2, hx3⟩ := (C103_characterisation h rfl (by simp [Ex1.declB]) (.inr rfl) (Nat.zero_le lMax) hk 0 (fun _ => -9/4) X).1 hX
  rw [Ex1.joins_iff h] at hx3
  have j0 := hx3 1 le_rfl
  have q0 := Ex1.eqs_iff.1 (hx2.eqs 0)
  simp only [lag1, shockAt, Ex1.lag_y, Pi.zero_apply] at j0 q0
  have y0 : x 0 0 = -3/2 := by linarith [j0.1, j0.2]
  have ys : ∀ s, x s 0 = -3/2 * (1/2) ^ s := by
    intro s
    induction s with
    | zero => rw [y0]; norm_num
    | succ s ih =>
      have := (hx3 (s + 1) (by omega)).1
      simp only [lag1, shockAt, Pi.zero_apply, ih] at this
      rw [this, pow_succ]
      ring
  have r0 : x 0 1 = -1 := hx2.binding 0 (by decide)
  have heq : Spec.Equilibrium Ex1.decl (lagVal Ex1.lay (0 : Fin 1 ⊕ Fin 1 → Rat)) (fun _ => -9/4) x := by
    refine ⟨hx2.eqs, fun s => ?_⟩
    rw [Ex1.not_eq, Ex1.lag_bound]
    show x s 1 = _
    cases s with
    | zero => rw [r0, y0]; norm_num
    | succ s =>
      rw [(hx3 (s + 1) (by omega)).2, max_eq_right]
      rw [ys, pow_succ]
      have : (1/2 : Rat) ^ s ≤ 1 := pow_le_one₀ (by norm_num) (by norm_num)
      linarith
  have hval : (fun s v => Ex1.lay.val (X s) (.inl v)) = x := by
    funext s v
    rw [hx1 s, val_stateOf Ex1.lay h.square]
    rfl
  refine ⟨Ex1.noReversal h, r, X, g1, g4, g2, g3, by rw [g2, g3]; exact hX, ?_, by rw [hval]; exact heq, fun x' n h1 h2 => ?_⟩
  · rw [hx1 0]
    funext i
    rcases i with i | i <;> obtain rfl : i = 0 := Subsingleton.elim _ _
    · rw [g5]; exact r0.symm
    · rw [g6]; exact y0.symm
  · obtain rfl := C161_unique h (Ex1.noReversal h) h1 heq h2 ((Ex1.joins_iff h).2 hx3)
    exact ⟨r0, ys⟩

/-! ## A model with two equilibria -/

namespace Ex12

variable {lMax kMax : Nat} {sched : Nat → List Nat} {mod : Model (Fin 1) (Fin 1) (Fin 1) (Fin 1) Rat}

theorem val_y (st : Fin 1 ⊕ Fin 1 → Rat) : lay.val st (.inl 0) = st (.inr 0) := lay.val_z st 0
theorem val_r (st : Fin 1 ⊕ Fin 1 → Rat) : lay.val st (.inl 1) = st (.inl 0) := lay.val_p st 0

theorem lag_y (st : Fin 1 ⊕ Fin 1 → Rat) : lagVal lay st 0 = st (.inr 0) := by
  unfold lagVal
  rw [if_neg (not_inall 0), val_y]

/-- the linear solution in this model -/
theorem joins_iff (h : Succeeded lay orc lMax kMax sched mod) {st : Fin 1 ⊕ Fin 1 → Rat} {eps : Fin 1 → Rat} {x : Nat → Fin 2 → Rat} {n : Nat} :
    Spec.JoinsLinear lay mod st eps x n ↔ ∀ s, n ≤ s →
      x s 0 = 1/2 * lag1 (st (.inr 0)) (fun s => x s 0) s - shockAt eps s 0 ∧ x s 1 = x s 0 := by
  obtain ⟨c, hm⟩ := genSys_ok h.perm h.gen
  have hkl := hm.kl
  simp only [orc, Except.ok.injEq, Prod.mk.injEq] at hkl
  have hp : ∀ s, prev st (fun s => stateOf lay (x s)) s (.inr 0) = lag1 (st (.inr 0)) (fun s => x s 0) s := by
    intro s
    cases s <;> rfl
  refine forall_congr' fun s => forall_congr' fun _ => ?_
  rw [← tFunc_linear, tFunc_linear_eq h, ← hkl.1, ← hkl.2]
  constructor
  · rintro ⟨r, h1, h2⟩
    cases h1
    have e0 := h2 0
    have e1 := h2 1
    rw [val_y] at e0
    rw [val_r] at e1
    simp [mulVec, dotProduct, Fintype.sum_sum_type, lam, omg, q0Of, hp] at e0 e1
    rw [e0, e1]
    exact ⟨by ring, by ring⟩
  · rintro ⟨h1, h2⟩
    refine ⟨_, rfl, fun v => ?_⟩
    fin_cases v
    · show x s 0 = lay.val _ (.inl 0)
      rw [val_y, h1]
      simp [mulVec, dotProduct, Fintype.sum_sum_type, lam, omg, q0Of, hp, sub_eq_add_neg]
    · show x s 1 = lay.val _ (.inl 1)
      rw [val_r, h2, h1]
      simp [mulVec, dotProduct, Fintype.sum_sum_type, lam, omg, q0Of, hp, sub_eq_add_neg]

theorem eqs_iff {xl : Fin 2 → Rat} {eps : Fin 1 → Rat} {x : Nat → Fin 2 → Rat} {s : Nat} :
    EqsHold decl xl eps x s ↔ x s 0 = -2/15 * lag1 (xl 0) (fun s => x s 0) s + 4/3 * x s 1 - 2/15 * x (s + 1) 1 + 4/15 * shockAt eps s 0 := by
  have hp : prev xl x s 0 = lag1 (xl 0) (fun s => x s 0) s := by cases s <;> rfl
  rw [← hp]
  constructor
  · intro hh
    have := congrFun hh 0
    simp [declB, mulVec, dotProduct, Fin.sum_univ_two] at this
    linarith
  · intro hh
    funext i
    obtain rfl : i = 0 := Subsingleton.elim _ _
    simp [declB, mulVec, dotProduct, Fin.sum_univ_two]
    linarith

theorem not_eq {xl : Fin 2 → Rat} {eps : Fin 1 → Rat} {x : Nat → Fin 2 → Rat} {s : Nat} : notional decl xl eps x s = x s 0 := by
  simp [notional, declB, dotProduct, Fin.sum_univ_two]

/-- the second equilibrium: the constraint binds at once, because it is expected to bind -/
def other (s : Nat) : Fin 2 → Rat := fun v => if v = 1 ∧ s = 0 then -1 else -5/4 * (1/2) ^ s

theorem other_y (s : Nat) : other s 0 = -5/4 * (1/2) ^ s := by simp [other]
theorem other_r (s : Nat) : other (s + 1) 1 = -5/4 * (1/2) ^ (s + 1) := by simp [other]
theorem other_r0 : other 0 1 = -1 := by simp [other]

theorem other_joins (h : Succeeded lay orc lMax kMax sched mod) : Spec.JoinsLinear lay mod 0 0 other 1 := by
  rw [joins_iff h]
  intro s hs
  obtain ⟨s, rfl⟩ : ∃ t, s = t + 1 := ⟨s - 1, by omega⟩
  simp only [lag1, shockAt_zero, other_y, other_r, Pi.zero_apply, pow_succ]
  exact ⟨by ring, trivial⟩

theorem other_equilibrium : Spec.Equilibrium decl (lagVal lay (0 : Fin 1 ⊕ Fin 1 → Rat)) 0 other := by
  constructor
  · intro s
    rw [eqs_iff]
    cases s with
    | zero => simp only [lag1, shockAt_zero, lag_y, Pi.zero_apply, other_y, other_r, other_r0, Nat.zero_add]; norm_num
    | succ s => simp only [lag1, shockAt_zero, lag_y, Pi.zero_apply, other_y, other_r, pow_succ]; ring
  · intro s
    rw [not_eq]
    show other s 1 = max (-1) _
    cases s with
    | zero => rw [other_r0, other_y]; norm_num
    | succ s =>
      rw [other_r, other_y, max_eq_right]
      rw [pow_succ]
      have : (1/2 : Rat) ^ s ≤ 1 := pow_le_one₀ (by norm_num) (by norm_num)
      linarith

theorem zero_equilibrium : Spec.Equilibrium decl (lagVal lay (0 : Fin 1 ⊕ Fin 1 → Rat)) 0 (fun _ => 0) := by
  constructor
  · intro s
    rw [eqs_iff]
    cases s <;> simp [lag1, shockAt_zero, lag_y]
  · intro s
    rw [not_eq]
    show (0 : Rat) = max (-1) 0
    norm_num

theorem zero_joins (h : Succeeded lay orc lMax kMax sched mod) : Spec.JoinsLinear lay mod 0 0 (fun _ => 0) 0 := by
  rw [joins_iff h]
  intro s _
  cases s <;> simp [lag1, shockAt_zero]

end Ex12

/-- **C161** (fails in general): in this model, at the steady state and without a shock, `t_func` reports that the constraint does not bind, with
flag 0, and this is an equilibrium; but there is a second one, which ends on the linear solution as well and in which the constraint binds at
once for one period.  The search would find it with the spell `(0, 1)`, but `(0, 0)` is tried first. -/
theorem C161_reported_refuted {lMax kMax : Nat} {sched : Nat → List Nat} {mod : Model (Fin 1) (Fin 1) (Fin 1) (Fin 1) Rat}
    (h : Succeeded Ex12.lay Ex12.orc lMax kMax sched mod) (hk : 1 ≤ kMax) :
    ∃ r, tFunc mod 0 0 .none false = .ok r ∧ r.flag = 0 ∧ ∃ x x' : Nat → Fin 2 → Rat,
      Spec.Equilibrium Ex12.decl (lagVal Ex12.lay (0 : Fin 1 ⊕ Fin 1 → Rat)) 0 x ∧ Spec.JoinsLinear Ex12.lay mod 0 0 x 0 ∧
      r.state = stateOf Ex12.lay (x 0) ∧
      Spec.Equilibrium Ex12.decl (lagVal Ex12.lay (0 : Fin 1 ⊕ Fin 1 → Rat)) 0 x' ∧ Spec.JoinsLinear Ex12.lay mod 0 0 x' 1 ∧
      ExpectedPath mod 0 1 0 0 (fun s => stateOf Ex12.lay (x' s)) ∧ r.state ≠ stateOf Ex12.lay (x' 0) := by
  obtain ⟨r, h1, h2, -, -, h5⟩ := C10_steady_state_fixed_point h (show (-1 : Rat) < 0 by norm_num) false
  refine ⟨r, h1, h5, fun _ => 0, Ex12.other, Ex12.zero_equilibrium, Ex12.zero_joins h, ?_, Ex12.other_equilibrium, Ex12.other_joins h, ?_, ?_⟩
  · rw [h2]
    funext i
    rcases i with i | i <;> rfl
  · refine C103_unique_path h rfl (by simp [Ex12.declB]) (.inr rfl) (Nat.zero_le lMax) hk 0 0 _ ⟨Ex12.other_equilibrium.eqs, fun s hs => ?_, fun s hs => ?_⟩
      (Ex12.other_joins h)
    · rw [Ex12.not_eq]
      obtain ⟨t, rfl⟩ : ∃ t, s = t + 1 := ⟨s - 1, by unfold BindsAt at hs; omega⟩
      exact (Ex12.other_r t).trans (Ex12.other_y (t + 1)).symm
    · obtain rfl : s = 0 := by unfold BindsAt at hs; omega
      exact Ex12.other_r0
  · rw [h2]
    intro h0
    have := congrFun h0 (.inr 0)
    have e : Ex12.other 0 0 = 0 := this.symm
    rw [Ex12.other_y] at e
    norm_num at e

/-- So announced disturbances do reverse in this model. -/
theorem C161_reversal {lMax kMax : Nat} {sched : Nat → List Nat} {mod : Model (Fin 1) (Fin 1) (Fin 1) (Fin 1) Rat}
    (h : Succeeded Ex12.lay Ex12.orc lMax kMax sched mod) : ¬ Spec.NoReversal Ex12.lay mod := by
  intro hP
  have := C161_unique h hP Ex12.zero_equilibrium Ex12.other_equilibrium (Ex12.zero_joins h) (Ex12.other_joins h)
  have e : (0 : Rat) = Ex12.other 0 0 := congrFun (congrFun this 0) 0
  rw [Ex12.other_y] at e
  norm_num at e

/-- The refutation is about a model that exists. -/
example : ∃ mod, Succeeded Ex12.lay Ex12.orc 3 17 (serial 17) mod := Ex12.succeeds 3 17 (Ex12.serial_perm 3 17)

end Pydsge
