import Verif.Props.FoundLag
import Verif.Examples.Ex9
import Verif.Props.TimeConsEx

/-!
# C173: cases that meet the hypotheses
-/

set_option autoImplicit false
set_option linter.unusedSectionVars false
set_option linter.unusedSimpArgs false

namespace Pydsge

open Matrix Pydsge.Engine Pydsge.Spec Pydsge.Tools Pydsge.GenSys

namespace Ex9

variable {lMax kMax : Nat} {sched : Nat → List Nat} {mod : Model (Fin 1) (Fin 1) (Fin 1) (Fin 1) Rat}

theorem val_y (st : Fin 1 ⊕ Fin 1 → Rat) : lay.val st (.inl 0) = st (.inr 0) := lay.val_z st 0
theorem val_r (st : Fin 1 ⊕ Fin 1 → Rat) : lay.val st (.inl 1) = st (.inl 0) := lay.val_p st 0

theorem lagVal_y (st : Fin 1 ⊕ Fin 1 → Rat) : lagVal lay st 0 = st (.inr 0) := by
  unfold lagVal
  rw [if_neg (not_inall 0), val_y]

theorem lagsNotExpected : Spec.LagsNotExpected decl := by
  intro v hv e
  have : v = 0 := by
    by_contra h0
    exact hv (if_neg h0)
  subst this
  rfl

theorem self_ne : decl.rb decl.cvar ≠ 1 := by show (1/2 : Rat) ≠ 1; norm_num

/-- the linear solution in this model -/
theorem joins_iff (h : Succeeded lay orc lMax kMax sched mod) {st : Fin 1 ⊕ Fin 1 → Rat} {eps : Fin 1 → Rat} {x : Nat → Fin 2 → Rat} {n : Nat} :
    Spec.JoinsLinear lay mod st eps x n ↔ ∀ s, n ≤ s →
      x s 0 = 3/5 * lag1 (st (.inr 0)) (fun s => x s 0) s + 4/5 * shockAt eps s 0 ∧
      x s 1 = 1/4 * lag1 (st (.inr 0)) (fun s => x s 0) s + shockAt eps s 0 := by
  obtain ⟨c, hm⟩ := genSys_ok h.perm h.gen
  have hkl := hm.kl
  simp only [orc, Except.ok.injEq, Prod.mk.injEq] at hkl
  have hp : ∀ s, prev st (fun s => stateOf lay (x s)) s (.inr 0) = lag1 (st (.inr 0)) (fun s => x s 0) s := by
    intro s
    cases s <;> rfl
  refine forall_congr' fun s => forall_congr' fun _ => ?_
  rw [← tFunc_linear, tFunc_linear_eq h, ← hkl.1, ← hkl.2]
  constructor
  · rintro ⟨r, h1, h2⟩
    cases h1
    have e0 := h2 0
    have e1 := h2 1
    rw [val_y] at e0
    rw [val_r] at e1
    simp [mulVec, dotProduct, Fintype.sum_sum_type, lam, omg, q0Of, hp] at e0 e1
    rw [e0, e1]
    exact ⟨by ring, by ring⟩
  · rintro ⟨h1, h2⟩
    refine ⟨_, rfl, fun v => ?_⟩
    fin_cases v
    · show x s 0 = lay.val _ (.inl 0)
      rw [val_y, h1]
      simp [mulVec, dotProduct, Fintype.sum_sum_type, lam, omg, q0Of, hp]
    · show x s 1 = lay.val _ (.inl 1)
      rw [val_r, h2]
      simp [mulVec, dotProduct, Fintype.sum_sum_type, lam, omg, q0Of, hp]

theorem eqs_iff {xl : Fin 2 → Rat} {eps : Fin 1 → Rat} {x : Nat → Fin 2 → Rat} {s : Nat} :
    EqsHold decl xl eps x s ↔ x (s + 1) 1 + x s 0 - 3/4 * lag1 (xl 0) (fun s => x s 0) s - shockAt eps s 0 = 0 := by
  have hp : prev xl x s 0 = lag1 (xl 0) (fun s => x s 0) s := by cases s <;> rfl
  rw [← hp]
  constructor
  · intro hh
    have := congrFun hh 0
    simp [declB, mulVec, dotProduct, Fin.sum_univ_two] at this
    linarith
  · intro hh
    funext i
    obtain rfl : i = 0 := Subsingleton.elim _ _
    simp [declB, mulVec, dotProduct, Fin.sum_univ_two]
    linarith

/-- the constraint equation that is solved -/
theorem rule_eq {xl : Fin 2 → Rat} {eps : Fin 1 → Rat} {x : Nat → Fin 2 → Rat} {s : Nat} :
    Spec.ruleAt (Spec.asSolved decl) xl eps x s = x s 0 - 7/20 * lag1 (xl 0) (fun s => x s 0) s + 1/5 * shockAt eps s 0 := by
  have hp : prev xl x s 0 = lag1 (xl 0) (fun s => x s 0) s := by cases s <;> rfl
  rw [← hp]
  simp [Spec.ruleAt, Spec.ruleValue, Spec.asSolved, declB, dotProduct, Fin.sum_univ_two]
  ring

/-- the equilibrium after the shock `-7`: the constraint binds for two periods -/
def deep (s : Nat) : Fin 2 → Rat := fun v => if v = 1 then (if s < 2 then -1 else -3/2 * (3/5) ^ (s - 1)) else -6 * (3/5) ^ s

theorem deep_y (s : Nat) : deep s 0 = -6 * (3/5) ^ s := by simp [deep]
theorem deep_r (s : Nat) (hs : s < 2) : deep s 1 = -1 := by simp [deep, hs]
theorem deep_r2 (s : Nat) : deep (s + 2) 1 = -3/2 * (3/5) ^ (s + 1) := by simp [deep]

theorem deep_lag (s : Nat) : lag1 (0 : Rat) (fun s => deep s 0) (s + 1) = -6 * (3/5) ^ s := deep_y s

theorem deep_rule (s : Nat) : Spec.ruleAt (Spec.asSolved decl) (lagVal lay (0 : Fin 1 ⊕ Fin 1 → Rat)) (fun _ => -7) deep (s + 1) =
    -3/2 * (3/5) ^ s := by
  rw [rule_eq, lagVal_y, Pi.zero_apply, deep_lag, deep_y]
  simp only [shockAt, Pi.zero_apply, pow_succ]
  ring

theorem deep_rule0 : Spec.ruleAt (Spec.asSolved decl) (lagVal lay (0 : Fin 1 ⊕ Fin 1 → Rat)) (fun _ => -7) deep 0 = -37/5 := by
  rw [rule_eq, lagVal_y, deep_y]
  simp only [shockAt, lag1, Pi.zero_apply]
  norm_num

theorem pow_small (s : Nat) : (3/5 : Rat) ^ s ≤ 1 := pow_le_one₀ (by norm_num) (by norm_num)

theorem deep_equilibrium : Spec.RuleEquilibrium (Spec.asSolved decl) (lagVal lay (0 : Fin 1 ⊕ Fin 1 → Rat)) (fun _ => -7) deep := by
  constructor
  · intro s
    refine (eqs_iff (s := s)).2 ?_
    rw [lagVal_y, Pi.zero_apply]
    rcases s with _ | s
    · rw [deep_r 1 (by omega)]
      simp only [lag1, shockAt, deep_y]
      norm_num
    · rw [deep_r2, deep_y, deep_lag]
      simp only [shockAt, Pi.zero_apply, pow_succ]
      ring
  · intro s
    show deep s 1 = max (-1) _
    rcases s with _ | _ | s
    · rw [deep_rule0, deep_r 0 (by omega)]
      norm_num
    · rw [deep_rule, deep_r _ (by omega)]
      norm_num
    · rw [deep_rule, deep_r2, max_eq_right]
      have := pow_small s
      rw [pow_succ]
      linarith

theorem deep_below {s : Nat} (hs : Spec.ruleAt (Spec.asSolved decl) (lagVal lay (0 : Fin 1 ⊕ Fin 1 → Rat)) (fun _ => -7) deep s ≤ -1) : s < 2 := by
  by_contra hn
  obtain ⟨t, rfl⟩ : ∃ t, s = t + 2 := ⟨s - 2, by omega⟩
  rw [deep_rule, pow_succ] at hs
  have := pow_small t
  linarith

theorem deep_oneSpell :
    Spec.OneSpellOf decl.xbar (Spec.ruleAt (Spec.asSolved decl) (lagVal lay (0 : Fin 1 ⊕ Fin 1 → Rat)) (fun _ => -7) deep) 0 2 := by
  refine ⟨fun s hs => ?_, fun s _ hs => ?_⟩
  · have := deep_below (le_of_lt hs)
    omega
  · show _ ≤ (-1 : Rat)
    have : s = 0 ∨ s = 1 := by omega
    rcases this with rfl | rfl
    · rw [deep_rule0]; norm_num
    · rw [deep_rule]; norm_num

theorem deep_joins (h : Succeeded lay orc lMax kMax sched mod) : Spec.JoinsLinear lay mod 0 (fun _ => -7) deep 2 := by
  rw [joins_iff h]
  intro s hs
  obtain ⟨s, rfl⟩ : ∃ t, s = t + 2 := ⟨s - 2, by omega⟩
  rw [deep_r2, deep_y, Pi.zero_apply, deep_lag]
  simp only [shockAt, Pi.zero_apply, pow_succ]
  constructor <;> ring

/-- If the lagged value is zero or not, the constrained variable is a share of it. -/
theorem share {r a t : Rat} (ha : 0 < a) (h : (r - a * t) * r ≤ 0) : ∃ θ : Rat, 0 ≤ θ ∧ θ ≤ a ∧ r = θ * t := by
  by_cases ht : t = 0
  · subst ht
    exact ⟨0, le_rfl, ha.le, by nlinarith⟩
  · refine ⟨r / t, ?_, ?_, by field_simp⟩
    all_goals
      have h1 : r = r / t * t := by field_simp
      generalize r / t = θ at *
      subst h1
      have h3 : 0 < t * t := mul_self_pos.2 ht
      have h2 : (θ * t - a * t) * (θ * t) = ((θ - a) * θ) * (t * t) := by ring
      rw [h2] at h
      have h4 : (θ - a) * θ ≤ 0 := by
        by_contra hn
        exact absurd h (not_le.2 (mul_pos (not_le.1 hn) h3))
      by_contra hn
      push Not at hn
      nlinarith

/-- announced disturbances do not reverse in this model -/
theorem noReversalOf (h : Succeeded lay orc lMax kMax sched mod) : Spec.NoReversalOf lay mod := by
  intro d w n he hc hj hw
  rw [joins_iff h] at hj
  have he : ∀ s, d (s + 1) 1 + d s 0 - 3/4 * lag1 0 (fun s => d s 0) s = 0 := by
    intro s
    have := eqs_iff.1 (he s)
    rw [shockAt_zero] at this
    simpa using this
  have hw' : ∀ s, (d s 1 - (d s 0 - 7/20 * lag1 0 (fun s => d s 0) s)) * d s 1 ≤ 0 := by
    intro s
    have h1 := hc s
    have h2 := hw s
    rw [rule_eq, shockAt_zero] at h1
    change d s 1 = _ at h1
    change w s * d s 1 ≤ 0 at h2
    simp only [Pi.zero_apply, mul_zero, add_zero] at h1
    rwa [show d s 1 - (d s 0 - 7/20 * lag1 0 (fun s => d s 0) s) = w s by linarith]
  have key : ∀ j s, n ≤ s + j → ∃ θ : Rat, 0 ≤ θ ∧ θ ≤ 2/5 ∧ d s 1 = θ * lag1 0 (fun s => d s 0) s := by
    intro j
    induction j with
    | zero =>
      intro s hs
      have := (hj s hs).2
      rw [shockAt_zero] at this
      exact ⟨1/4, by norm_num, by norm_num, by simpa using this⟩
    | succ j ih =>
      intro s hs
      obtain ⟨ρ, a1, a2, a3⟩ := ih (s + 1) (by omega)
      have h1 := he s
      have h2 := hw' s
      change d (s + 1) 1 = ρ * d s 0 at a3
      rw [a3] at h1
      generalize lag1 0 (fun s => d s 0) s = t at *
      have hpos : 0 < 1 + ρ := by linarith
      have hy : d s 0 = 3/4 / (1 + ρ) * t := by
        rw [div_mul_eq_mul_div, eq_div_iff hpos.ne']
        linarith
      have hα : 0 < 3/4 / (1 + ρ) - 7/20 := by
        rw [sub_pos, lt_div_iff₀ hpos]
        linarith
      have hα2 : 3/4 / (1 + ρ) - 7/20 ≤ 2/5 := by
        have : 3/4 / (1 + ρ) ≤ 3/4 := by rw [div_le_iff₀ hpos]; linarith
        linarith
      rw [hy] at h2
      obtain ⟨θ, b1, b2, b3⟩ := share (r := d s 1) (t := t) hα (by rw [← sub_mul] at h2; exact h2)
      exact ⟨θ, b1, b2.trans hα2, b3⟩
  have hy : ∀ s, d s 0 = 0 := by
    intro s
    induction s with
    | zero =>
      obtain ⟨ρ, a1, _, a3⟩ := key n 1 (by omega)
      have h1 := he 0
      simp only [lag1] at a3 h1
      rw [zero_add, a3] at h1
      have hpos : 0 < 1 + ρ := by linarith
      exact (mul_eq_zero.1 (show (1 + ρ) * d 0 0 = 0 by linarith)).resolve_left hpos.ne'
    | succ s ih =>
      obtain ⟨ρ, a1, _, a3⟩ := key n (s + 2) (by omega)
      have h1 := he (s + 1)
      simp only [lag1] at a3 h1
      rw [ih, show s + 1 + 1 = s + 2 from rfl, a3] at h1
      have hpos : 0 < 1 + ρ := by linarith
      exact (mul_eq_zero.1 (show (1 + ρ) * d (s + 1) 0 = 0 by linarith)).resolve_left hpos.ne'
  funext s v
  fin_cases v
  · exact hy s
  · obtain ⟨θ, _, _, t2⟩ := key n s (by omega)
    have : lag1 0 (fun s => d s 0) s = 0 := by
      cases s with
      | zero => rfl
      | succ s => exact hy s
    rw [this, mul_zero] at t2
    exact t2

end Ex9

/-- **C173**: the hypotheses are met by a model with lags, shocks and the constrained variable itself in its constraint. -/
theorem C173_hypotheses_met : ∃ mod, Succeeded Ex9.lay Ex9.orc 2 30 (serial 30) mod ∧ Spec.LagsNotExpected Ex9.decl ∧
    Ex9.decl.rb Ex9.decl.cvar ≠ 1 ∧ Spec.NoReversalOf Ex9.lay mod ∧
    Spec.RuleEquilibrium (Spec.asSolved Ex9.decl) (lagVal Ex9.lay (0 : Fin 1 ⊕ Fin 1 → Rat)) (fun _ => -7) Ex9.deep ∧
    Spec.OneSpellOf Ex9.decl.xbar (Spec.ruleAt (Spec.asSolved Ex9.decl) (lagVal Ex9.lay (0 : Fin 1 ⊕ Fin 1 → Rat)) (fun _ => -7) Ex9.deep) 0 2 ∧
    Spec.JoinsLinear Ex9.lay mod 0 (fun _ => -7) Ex9.deep 2 ∧ ∃ r, tFunc mod 0 (fun _ => -7) .none false = .ok r ∧ r.flag = 0 := by
  obtain ⟨mod, h⟩ := Ex9.succeeds (b := -1) 2 30 (Ex9.serial_perm 2 30)
  exact ⟨mod, h, Ex9.lagsNotExpected, Ex9.self_ne, Ex9.noReversalOf h, Ex9.deep_equilibrium, Ex9.deep_oneSpell, Ex9.deep_joins h,
    C173_found h (by omega) (by omega) (by omega) Ex9.lagsNotExpected Ex9.self_ne (Nat.zero_le _) (by omega) Ex9.deep_equilibrium
      Ex9.deep_oneSpell (Ex9.deep_joins h)⟩

/-- **C173**: the hypotheses of `C173_flagged` are met. With `k_max = 1` the same shock leads to an error, and the equilibrium has a spell of two
periods. -/
theorem C173_flagged_hypotheses_met : ∃ mod r, Succeeded Ex9.lay Ex9.orc 1 1 (serial 1) mod ∧ tFunc mod 0 (fun _ => -7) .none false = .ok r ∧
    r.flag ≠ 0 ∧ Spec.RuleEquilibrium (Spec.asSolved Ex9.decl) (lagVal Ex9.lay (0 : Fin 1 ⊕ Fin 1 → Rat)) (fun _ => -7) Ex9.deep ∧
    Spec.OneSpellOf Ex9.decl.xbar (Spec.ruleAt (Spec.asSolved Ex9.decl) (lagVal Ex9.lay (0 : Fin 1 ⊕ Fin 1 → Rat)) (fun _ => -7) Ex9.deep) 0 2 ∧
    Spec.JoinsLinear Ex9.lay mod 0 (fun _ => -7) Ex9.deep 2 := by
  obtain ⟨mod, h⟩ := Ex9.succeeds (b := -1) 1 1 (Ex9.serial_perm 1 1)
  obtain ⟨r, hr, hiff⟩ := C173_flag_iff h le_rfl (by omega) Ex9.lagsNotExpected Ex9.self_ne 0 (fun _ => -7)
  refine ⟨mod, r, h, hr, fun h0 => ?_, Ex9.deep_equilibrium, Ex9.deep_oneSpell, Ex9.deep_joins h⟩
  obtain ⟨l, k, X, hl, hk, h00, hX, hp⟩ := hiff.1 h0
  obtain ⟨x, hx1, hx2, hx3⟩ := (C148_characterisation h Ex9.lagsNotExpected Ex9.self_ne hl hk 0 (fun _ => -7) X).1 hX
  have hd : Spec.declared Ex9.lay X = x := by
    funext s w
    unfold Spec.declared
    rw [hx1, val_stateOf Ex9.lay h.square]
    rfl
  rw [hd] at hp
  rw [Ex9.joins_iff h] at hx3
  have e0 := Ex9.eqs_iff.1 (show EqsHold Ex9.decl _ _ x 0 from hx2.eqs 0)
  change (_ ∧ ∀ j < 1 + 1, (-1 : Rat) < _) ∨ (_ ∧ (_ → (-1 : Rat) ≤ _) ∧ _ ∧ _ ∧ _ ∧ (-1 : Rat) ≤ _) at hp
  simp only [Ex9.rule_eq, Ex9.lagVal_y, Pi.zero_apply] at hp
  simp only [Ex9.lagVal_y, lag1, shockAt, Pi.zero_apply] at e0
  rcases hp with ⟨rfl, hp⟩ | ⟨h1, h2, -, -, -, h3⟩
  · obtain rfl := h00 rfl
    have j0 := (hx3 0 (by omega)).1
    have p0 := hp 0 (by omega)
    simp only [lag1, shockAt, Pi.zero_apply] at j0 p0
    linarith
  · obtain rfl : k = 1 := by omega
    have : l = 0 ∨ l = 1 := by omega
    rcases this with rfl | rfl
    · have j1 := hx3 1 (by omega)
      simp only [lag1, shockAt, Pi.zero_apply] at j1 h3
      linarith [j1.1, j1.2]
    · have b1 : x 1 1 = -1 := hx2.binding 1 ⟨le_rfl, by omega⟩
      have h2 := h2 le_rfl
      simp only [lag1, shockAt] at h2
      rw [b1] at e0
      linarith

namespace Ex9

variable {lMax kMax : Nat} {sched : Nat → List Nat} {mod : Model (Fin 1) (Fin 1) (Fin 1) (Fin 1) Rat}

/-- the expected path after the shock `-2`: the constraint binds in the first period -/
def shallow (s : Nat) : Fin 2 → Rat := fun v => if v = 1 then (if s = 0 then -1 else -2/5 * (3/5) ^ (s - 1)) else -8/5 * (3/5) ^ s

theorem shallow_y (s : Nat) : shallow s 0 = -8/5 * (3/5) ^ s := by simp [shallow]
theorem shallow_r (s : Nat) : shallow (s + 1) 1 = -2/5 * (3/5) ^ s := by simp [shallow]
theorem shallow_lag (s : Nat) : lag1 (0 : Rat) (fun s => shallow s 0) (s + 1) = -8/5 * (3/5) ^ s := shallow_y s

theorem shallow_rule0 : Spec.ruleAt (Spec.asSolved decl) (lagVal lay (0 : Fin 1 ⊕ Fin 1 → Rat)) (fun _ => -2) shallow 0 = -2 := by
  rw [rule_eq, lagVal_y, shallow_y]
  simp only [shockAt, lag1, Pi.zero_apply]
  norm_num

theorem shallow_rule (s : Nat) : Spec.ruleAt (Spec.asSolved decl) (lagVal lay (0 : Fin 1 ⊕ Fin 1 → Rat)) (fun _ => -2) shallow (s + 1) =
    -2/5 * (3/5) ^ s := by
  rw [rule_eq, lagVal_y, Pi.zero_apply, shallow_lag, shallow_y]
  simp only [shockAt, Pi.zero_apply, pow_succ]
  ring

theorem shallow_joins (h : Succeeded lay orc lMax kMax sched mod) : Spec.JoinsLinear lay mod 0 (fun _ => -2) shallow (0 + 1) := by
  rw [joins_iff h]
  intro s hs
  obtain ⟨s, rfl⟩ : ∃ t, s = t + 1 := ⟨s - 1, by omega⟩
  rw [shallow_r, shallow_y, Pi.zero_apply, shallow_lag]
  simp only [shockAt, Pi.zero_apply, pow_succ]
  constructor <;> ring

theorem shallow_satisfies :
    Spec.SatisfiesOf decl.xbar (Spec.ruleAt (Spec.asSolved decl) (lagVal lay (0 : Fin 1 ⊕ Fin 1 → Rat)) (fun _ => -2) shallow) 0 1 := by
  refine ⟨fun s hs => by omega, fun s hs => ?_, fun s hs => ?_⟩
  · obtain rfl : s = 0 := by have := hs.2; omega
    show _ ≤ (-1 : Rat)
    rw [shallow_rule0]
    norm_num
  · show (-1 : Rat) < _
    obtain ⟨s, rfl⟩ : ∃ t, s = t + 1 := ⟨s - 1, by omega⟩
    rw [shallow_rule]
    have := pow_small s
    linarith

theorem shallow_equilibrium : Spec.RuleEquilibrium (Spec.asSolved decl) (lagVal lay (0 : Fin 1 ⊕ Fin 1 → Rat)) (fun _ => -2) shallow := by
  constructor
  · intro s
    refine (eqs_iff (s := s)).2 ?_
    rw [lagVal_y, Pi.zero_apply, shallow_r, shallow_y]
    rcases s with _ | s
    · simp only [lag1, shockAt]
      norm_num
    · rw [shallow_lag]
      simp only [shockAt, Pi.zero_apply, pow_succ]
      ring
  · intro s
    show shallow s 1 = max (-1) _
    rcases s with _ | s
    · rw [shallow_rule0]
      simp [shallow]
    · rw [shallow_rule, shallow_r, max_eq_right]
      have := pow_small s
      linarith

theorem shallow_expected (hk : 1 ≤ kMax) (h : Succeeded lay orc lMax kMax sched mod) :
    ExpectedPath mod 0 1 0 (fun _ => -2) (fun s => stateOf lay (shallow s)) := by
  refine C148_unique_path h lagsNotExpected self_ne (Nat.zero_le _) hk 0 _ shallow ?_ (shallow_joins h)
  refine Spec.OneSpellOf.solves (D' := Spec.asSolved decl) self_ne shallow_equilibrium ⟨fun s hs => ?_, fun s _ hs => ?_⟩
  · by_contra hn
    exact absurd hs (not_lt.2 (shallow_satisfies.after s (by omega)).le)
  · exact shallow_satisfies.during s ⟨Nat.zero_le _, hs⟩

end Ex9

/-- **C173**: the hypotheses of `C173_expectations_come_true_partial` and of `C173_reported_partial` are met: the responses to the shock `-2` in
all periods. -/
theorem C173_expectations_hypotheses_met (lMax kMax : Nat) (hk : 1 ≤ kMax) (hL : lMax + 1 ≤ 999) (T : Nat) : ∃ mod,
    Succeeded Ex9.lay Ex9.orc lMax kMax (serial kMax) mod ∧
    (∃ xs, irfs mod ⟨[(0, -2, 0)], .none, false, false⟩ 0 T = .ok xs ∧ xs.length = T ∧
      ∀ (t : Nat) s, xs[t]? = some s → s.state = stateOf Ex9.lay (Ex9.shallow t) ∧ s.flag = 0) ∧
    ∀ (x : Nat → Fin 2 → Rat) (n : Nat),
      Spec.RuleEquilibrium (Spec.asSolved Ex9.decl) (lagVal Ex9.lay (0 : Fin 1 ⊕ Fin 1 → Rat)) (fun _ => -2) x →
      Spec.JoinsLinear Ex9.lay mod 0 (fun _ => -2) x n → ∀ s, stateOf Ex9.lay (Ex9.shallow s) = stateOf Ex9.lay (x s) := by
  obtain ⟨mod, h⟩ := Ex9.succeeds (b := -1) lMax kMax (Ex9.serial_perm lMax kMax)
  have hX := Ex9.shallow_expected hk h
  have hd : Spec.declared Ex9.lay (fun s => stateOf Ex9.lay (Ex9.shallow s)) = Ex9.shallow := by
    funext s w
    unfold Spec.declared
    rw [val_stateOf Ex9.lay h.square]
    rfl
  obtain ⟨r, hr, hl, hk', hf, -, -⟩ := Ex9.binding_run lMax kMax hk hL h
  refine ⟨mod, h, ?_, fun x n hx hj s => ?_⟩
  · obtain ⟨xs, a1, a2, a3⟩ := C173_expectations_come_true_partial h hk hL Ex9.lagsNotExpected Ex9.self_ne 0 [(0, -2, 0)] (fun _ => -2)
      (fun t => (shocksAt_iff _ _ _).2 (shkVec_single _ t).symm) hr hf (X := fun s => stateOf Ex9.lay (Ex9.shallow s)) (by rw [hl, hk']; exact hX)
      (by rw [hl, hk', hd]; exact Ex9.shallow_satisfies) (by rw [hl, hk']; intro t ht; omega) T
    · exact ⟨xs, a1, a2, fun t s hs => ⟨(a3 t s hs).1, (a3 t s hs).2.2⟩⟩
  · exact C173_reported_partial h Ex9.lagsNotExpected Ex9.self_ne (Ex9.noReversalOf h) (Nat.zero_le _) hk hX
      (by
        have := Ex9.shallow_equilibrium
        rw [← hd] at this
        exact this) hx hj s

end Pydsge
