import Verif.Props.MultFlag
import Verif.Props.OneEqEx
import Verif.Examples.Ex14

/-!
# C175: examples
-/

set_option autoImplicit false
set_option linter.unusedSectionVars false
set_option linter.unusedSimpArgs false

namespace Pydsge

open Matrix Pydsge.Engine Pydsge.Spec Pydsge.Tools Pydsge.GenSys

section First

variable {E ν ε o K : Type} [Fintype E] [Fintype ν] [Fintype ε] [Fintype o]
  [DecidableEq E] [DecidableEq ν] [DecidableEq ε] [Field K] [LinearOrder K] [IsStrictOrderedRing K]
variable {H z p : Type} [DecidableEq H] [Fintype H] [Fintype z] [Fintype p] [DecidableEq z] [DecidableEq p]
variable {tol : K} {m : Input E ν ε o K} [DecidablePred (inall tol m)] {lay : Layout tol m H z p}
  {orc : Oracle (Rows E H ε) (z ⊕ ε) p K} {lMax kMax : Nat} {sched : Nat → List Nat} {mod : Model z ε p o K}

/-- Before the first shock, which is in period 1, the model stays in its steady state. -/
theorem irfs_first_period (h : Succeeded lay orc lMax kMax sched mod) (hk1 : 1 ≤ kMax) (hxb : m.xbar < 0) {sl : List (ShockSpec ε K)}
    {sk : SetK} (hsk : sk = .none ∨ sk = .bool false) (hper : ∃ s ∈ sl, s.2.2 ≠ 0) (h0 : Spec.ShocksAt sl 0 0) {T : Nat}
    {xs : List (IrfState z p K)} (hx : irfs mod ⟨sl, sk, true, false⟩ 0 T = .ok xs) {s : IrfState z p K} (hs : xs[0]? = some s) :
    s.state = 0 ∧ ¬ Spec.SpellsDiffer mod sl 0 xs 0 := by
  obtain ⟨hlen, hst⟩ := irfRun_steps hx
  have h1 := hst 0 ⟨0, 0, 0, 0, false⟩ s rfl hs
  obtain ⟨en, r, g1, g2, g3, g4⟩ := irfStep_continue h hk1 (sk := sk) hper ((shocksAt_iff _ _ _).1 h0).symm
    (s := ⟨0, 0, 0, 0, false⟩) (Nat.zero_le _) (Nat.zero_le _)
  rw [Nat.zero_add, g4] at h1
  cases h1
  obtain ⟨r0, a1, a2, a3, a4, -⟩ := C10_steady_state_fixed_point h hxb false
  have e : en = r0 := Except.ok.inj (g1.symm.trans a1)
  subst e
  obtain ⟨r', b1, b2, -, -⟩ := C14_impose_found_equilibrium h hk1 _ _ en g1
  rw [a3, a4] at b1
  have e : r = r' := Except.ok.inj (g2.symm.trans b1)
  subst e
  refine ⟨b2.trans a2, ?_⟩
  rintro ⟨-, -, s2, en2, c1, c2, c3⟩
  rw [List.getElem?_cons_zero] at c1
  cases c1
  have e : en2 = en := Except.ok.inj (c2.symm.trans g1)
  subst e
  apply c3
  rw [a3, a4]
  rfl

end First

namespace Ex9

variable {lMax kMax : Nat} {sched : Nat → List Nat} {mod : Model (Fin 1) (Fin 1) (Fin 1) (Fin 1) Rat}

theorem shock_other {e : Rat} {n i : Nat} (hi : i ≠ n) : Spec.ShocksAt [((0 : Fin 1), e, (n : Int))] i 0 := by
  rw [shocksAt_iff]
  simp only [shkVec, List.foldl]
  rw [if_neg (by intro g; exact hi (by exact_mod_cast g.symm))]

theorem shock_at (e : Rat) (n : Nat) : Spec.ShocksAt [((0 : Fin 1), e, (n : Int))] n (fun _ => e) := by
  rw [shocksAt_iff]
  simp only [shkVec, List.foldl]
  rw [if_pos trivial]
  funext i
  obtain rfl : i = 0 := Subsingleton.elim _ _
  simp

/-- **C175**: the response to the shock `-7` in period 1: no report, over any horizon. -/
theorem quiet (hk : 2 ≤ kMax) (hl1 : 1 ≤ lMax) (hL : lMax + 1 ≤ 999) (h : Succeeded lay orc lMax kMax sched mod) {T : Nat}
    {xs : List (IrfState (Fin 1) (Fin 1) Rat)}
    (hx : irfs mod ⟨[((0 : Fin 1), (-7 : Rat), ((1 : Nat) : Int))], .none, true, false⟩ 0 T = .ok xs) :
    ∀ (i : Nat) s, xs[i]? = some s → s.mult = false := by
  have hper : ∃ s ∈ [((0 : Fin 1), (-7 : Rat), ((1 : Nat) : Int))], s.2.2 ≠ 0 := ⟨_, List.mem_singleton_self _, by norm_num⟩
  intro i s hs
  by_contra hn
  rw [Bool.not_eq_false] at hn
  obtain ⟨j, hj, hd⟩ := (C175_reported_iff h (by omega) (.inl rfl) hx i s hs).1 hn
  have hlt := (List.getElem?_eq_some_iff.1 hs).1
  have hp : xs[0]? = some xs[0] := List.getElem?_eq_getElem (by omega)
  obtain ⟨f1, f2⟩ := irfs_first_period h (by omega) (show (-1 : Rat) < 0 by norm_num) (.inl rfl) hper (shock_other (by omega)) hx hp
  rcases j with _ | _ | d
  · exact f2 hd
  · have := hd.2.1
    rw [shocksAt_iff, ← (shocksAt_iff _ _ _).1 (shock_at (-7) 1)] at this
    have := congrFun this 0
    norm_num at this
  · obtain ⟨-, -, s1, en, c1, c2, c3⟩ := hd
    have hX := deep_expected hk h
    have hrun : tFunc mod xs[0].state (fun _ => -7) .none false = .ok ⟨stateOf lay (deep 0), 0, 2, 0⟩ := by
      rw [f1]; exact deep_run hk hL h
    have hX' : ExpectedPath mod 0 2 xs[0].state (fun _ => -7) (fun s => stateOf lay (deep s)) := by rw [f1]; exact hX
    have hXe : Spec.RuleEquilibrium (Spec.asSolved decl) (lagVal lay xs[0].state) (fun _ => -7)
        (Spec.declared lay (fun s => stateOf lay (deep s))) := by
      rw [f1, declared_stateOf h]; exact deep_equilibrium
    have hne : (fun _ : Fin 1 => (-7 : Rat)) ≠ 0 := by
      intro g
      have := congrFun g 0
      norm_num at this
    have hno : ∀ i, 1 < i → i ≤ 1 + d → Spec.ShocksAt [((0 : Fin 1), (-7 : Rat), ((1 : Nat) : Int))] i 0 :=
      fun i h1 _ => shock_other (by omega)
    have hs1 : ((⟨0, 0, 0, 0, false⟩ : IrfState (Fin 1) (Fin 1) Rat) :: xs)[1 + d + 1]? = some s1 := by
      rw [← c1]; congr 1; omega
    have hp1 : ((⟨0, 0, 0, 0, false⟩ : IrfState (Fin 1) (Fin 1) Rat) :: xs)[1]? = some xs[0] := hp
    obtain ⟨e1, -⟩ := irfs_continues h (by omega) (.inl rfl) hper hx hp1 (shock_at (-7) 1) hne hrun hX' hno hs1
    obtain ⟨r', Y, y1, y2, y3⟩ := deep_reports hk hL h d
    rw [← e1] at y1 y2 y3
    have e : r' = en := Except.ok.inj (y1.symm.trans c2)
    subst e
    refine c3 (C175_no_false_alarm_partial h (by omega) hl1 lagsNotExpected self_ne (noReversalOf h) (.inl rfl) hper hx hp1 (shock_at (-7) 1) hne
      hrun hX' hXe hno hs1 y1 y2 y3 fun t => ?_)
    have hX2 := C15_restart hX d
    have hXe2 := equilibrium_later h lagsNotExpected (Nat.zero_le _) hk hX (by rw [declared_stateOf h]; exact deep_equilibrium) d
    obtain ⟨b1, b2⟩ := found_inside h (by omega) y1
    rw [e1] at y2 y3 ⊢
    have hle := elapsed_le (Nat.zero_le lMax) hk (d + 1)
    obtain rfl := C174_one_path h lagsNotExpected self_ne (noReversalOf h) hle.1 hle.2 b1 b2 hX2 y2 hXe2 y3
    rw [ruleAt_later h lagsNotExpected (Nat.zero_le _) hk hX d t, declared_stateOf h, show d + 1 + t = (d + t) + 1 by omega, deep_rule]
    show (-3/2 * (3/5) ^ (d + t) : Rat) ≠ -1
    rcases d + t with _ | n
    · norm_num
    · have := pow_small n
      rw [pow_succ]
      intro g
      linarith

end Ex9

/-- **C175**: the hypotheses of the absence of false alarms are met: a response with a binding constraint, over any horizon. -/
theorem C175_hypotheses_met (lMax kMax : Nat) (hk : 2 ≤ kMax) (hl1 : 1 ≤ lMax) (hL : lMax + 1 ≤ 999) : ∃ mod,
    Succeeded Ex9.lay Ex9.orc lMax kMax (serial kMax) mod ∧ Spec.NoReversalOf Ex9.lay mod ∧
    ∀ T, ∃ xs, irfs mod ⟨[((0 : Fin 1), (-7 : Rat), ((1 : Nat) : Int))], .none, true, false⟩ 0 T = .ok xs ∧ xs.length = T ∧
      ∀ (i : Nat) s, xs[i]? = some s → s.mult = false := by
  obtain ⟨mod, h⟩ := Ex9.succeeds (b := -1) lMax kMax (Ex9.serial_perm lMax kMax)
  refine ⟨mod, h, Ex9.noReversalOf h, fun T => ?_⟩
  obtain ⟨xs, h1, h2, -⟩ := C18_spell_continued_partial h (by omega) (.inl rfl) [((0 : Fin 1), (-7 : Rat), ((1 : Nat) : Int))]
    ⟨_, List.mem_singleton_self _, by norm_num⟩ 0 T
  exact ⟨xs, h1, h2, Ex9.quiet hk hl1 hL h h1⟩

/-! ### Two equilibria, reported -/

namespace Ex14

variable {lMax kMax : Nat} {sched : Nat → List Nat} {mod : Model (Fin 1) (Fin 1) (Fin 1) (Fin 1) Rat}

theorem val_y (st : Fin 1 ⊕ Fin 1 → Rat) : lay.val st (.inl 0) = st (.inr 0) := lay.val_z st 0
theorem val_r (st : Fin 1 ⊕ Fin 1 → Rat) : lay.val st (.inl 1) = st (.inl 0) := lay.val_p st 0

theorem lag_y (st : Fin 1 ⊕ Fin 1 → Rat) : lagVal lay st 0 = st (.inr 0) := by
  unfold lagVal
  rw [if_neg (not_inall 0), val_y]

theorem lagsNotExpected : Spec.LagsNotExpected decl := .of_rc rfl

theorem self_ne : decl.rb decl.cvar ≠ 1 := by show (0 : Rat) ≠ 1; norm_num

/-- the linear solution in this model -/
theorem joins_iff (h : Succeeded lay orc lMax kMax sched mod) {st : Fin 1 ⊕ Fin 1 → Rat} {eps : Fin 1 → Rat} {x : Nat → Fin 2 → Rat} {n : Nat} :
    Spec.JoinsLinear lay mod st eps x n ↔ ∀ s, n ≤ s →
      x s 0 = 1/2 * lag1 (st (.inr 0)) (fun s => x s 0) s - shockAt eps s 0 ∧ x s 1 = x s 0 := by
  obtain ⟨c, hm⟩ := genSys_ok h.perm h.gen
  have hkl := hm.kl
  simp only [orc, Except.ok.injEq, Prod.mk.injEq] at hkl
  have hp : ∀ s, prev st (fun s => stateOf lay (x s)) s (.inr 0) = lag1 (st (.inr 0)) (fun s => x s 0) s := by
    intro s
    cases s <;> rfl
  refine forall_congr' fun s => forall_congr' fun _ => ?_
  rw [← tFunc_linear, tFunc_linear_eq h, ← hkl.1, ← hkl.2]
  constructor
  · rintro ⟨r, h1, h2⟩
    cases h1
    have e0 := h2 0
    have e1 := h2 1
    rw [val_y] at e0
    rw [val_r] at e1
    simp [mulVec, dotProduct, Fintype.sum_sum_type, lam, omg, q0Of, hp] at e0 e1
    rw [e0, e1]
    exact ⟨by ring, by ring⟩
  · rintro ⟨h1, h2⟩
    refine ⟨_, rfl, fun v => ?_⟩
    fin_cases v
    · show x s 0 = lay.val _ (.inl 0)
      rw [val_y, h1]
      simp [mulVec, dotProduct, Fintype.sum_sum_type, lam, omg, q0Of, hp, sub_eq_add_neg]
    · show x s 1 = lay.val _ (.inl 1)
      rw [val_r, h2, h1]
      simp [mulVec, dotProduct, Fintype.sum_sum_type, lam, omg, q0Of, hp, sub_eq_add_neg]

theorem eqs_iff {xl : Fin 2 → Rat} {eps : Fin 1 → Rat} {x : Nat → Fin 2 → Rat} {s : Nat} :
    EqsHold (Spec.asSolved decl) xl eps x s ↔
      x s 0 = -1/4 * lag1 (xl 0) (fun s => x s 0) s + 4/3 * x s 1 + 1/3 * x (s + 1) 1 + 1/2 * shockAt eps s 0 := by
  have hp : prev xl x s 0 = lag1 (xl 0) (fun s => x s 0) s := by cases s <;> rfl
  rw [← hp]
  constructor
  · intro hh
    have := congrFun hh 0
    simp [Spec.asSolved, declB, mulVec, dotProduct, Fin.sum_univ_two] at this
    linarith
  · intro hh
    funext i
    obtain rfl : i = 0 := Subsingleton.elim _ _
    simp [Spec.asSolved, declB, mulVec, dotProduct, Fin.sum_univ_two]
    linarith

theorem rule_eq {xl : Fin 2 → Rat} {eps : Fin 1 → Rat} {x : Nat → Fin 2 → Rat} {s : Nat} :
    Spec.ruleAt (Spec.asSolved decl) xl eps x s = x s 0 := by
  simp [Spec.ruleAt, Spec.ruleValue, Spec.asSolved, declB, dotProduct, Fin.sum_univ_two]

theorem declared_stateOf (h : Succeeded lay orc lMax kMax sched mod) (x : Nat → Fin 2 → Rat) :
    Spec.declared lay (fun s => stateOf lay (x s)) = x := by
  funext s w
  unfold Spec.declared
  rw [val_stateOf lay h.square]
  rfl

/-- the equilibrium after the shock: the constraint binds for two periods -/
def first (s : Nat) : Fin 2 → Rat := fun v => if v = 1 ∧ s < 2 then -1 else if s = 0 then -13/12 else -51/20 * (1/2) ^ s

theorem first_y0 : first 0 0 = -13/12 := by simp [first]
theorem first_y (s : Nat) : first (s + 1) 0 = -51/20 * (1/2) ^ (s + 1) := by simp [first]
theorem first_r0 : first 0 1 = -1 := by simp [first]
theorem first_r1 : first 1 1 = -1 := by simp [first]
theorem first_r (s : Nat) : first (s + 2) 1 = -51/20 * (1/2) ^ (s + 2) := by simp [first]

theorem pow_le (s : Nat) : (1/2 : Rat) ^ s ≤ 1 := pow_le_one₀ (by norm_num) (by norm_num)

theorem first_equilibrium : Spec.RuleEquilibrium (Spec.asSolved decl) (lagVal lay (0 : Fin 1 ⊕ Fin 1 → Rat)) (fun _ => 7/6) first := by
  constructor
  · intro s
    rw [eqs_iff, lag_y, Pi.zero_apply]
    rcases s with _ | _ | s
    · simp only [lag1, shockAt, first_y0, first_r0, first_r1, Nat.zero_add]
      norm_num
    · simp only [lag1, shockAt, first_y0, first_y, first_r1, first_r, Nat.zero_add, Pi.zero_apply]
      norm_num
    · rw [show s + 1 + 1 + 1 = (s + 1) + 2 by omega, first_r, show s + 1 + 1 = s + 2 by omega, first_r]
      simp only [lag1, shockAt, first_y, Pi.zero_apply, pow_succ]
      ring
  · intro s
    rw [rule_eq]
    show first s 1 = max (-1) (first s 0)
    rcases s with _ | _ | s
    · rw [first_r0, first_y0]; norm_num
    · rw [first_r1, first_y]; norm_num
    · rw [first_r, first_y, max_eq_right]
      rw [pow_add, pow_succ]
      have := pow_le s
      linarith

theorem first_oneSpell : Spec.OneSpellOf decl.xbar
    (Spec.ruleAt (Spec.asSolved decl) (lagVal lay (0 : Fin 1 ⊕ Fin 1 → Rat)) (fun _ => 7/6) first) 0 2 := by
  constructor
  · intro s hs
    rw [rule_eq] at hs
    replace hs : first s 0 < -1 := hs
    refine ⟨Nat.zero_le _, ?_⟩
    by_contra hn
    obtain ⟨t, rfl⟩ : ∃ t, s = t + 2 := ⟨s - 2, by omega⟩
    rw [first_y, pow_add, pow_succ] at hs
    have := pow_le t
    linarith
  · intro s _ hs
    rw [rule_eq]
    show first s 0 ≤ -1
    rcases s with _ | _ | s
    · rw [first_y0]; norm_num
    · rw [first_y]; norm_num
    · omega

theorem first_joins (h : Succeeded lay orc lMax kMax sched mod) : Spec.JoinsLinear lay mod 0 (fun _ => 7/6) first (0 + 2) := by
  rw [joins_iff h]
  intro s hs
  obtain ⟨s, rfl⟩ : ∃ t, s = t + 2 := ⟨s - 2, by omega⟩
  rw [first_r]
  simp only [lag1, shockAt, first_y, Pi.zero_apply, pow_succ]
  exact ⟨by ring, trivial⟩

theorem first_expected (hk : 2 ≤ kMax) (h : Succeeded lay orc lMax kMax sched mod) :
    ExpectedPath mod 0 2 0 (fun _ => 7/6) (fun s => stateOf lay (first s)) :=
  C148_unique_path h lagsNotExpected self_ne (Nat.zero_le _) hk 0 _ first
    (Spec.OneSpellOf.solves (D' := Spec.asSolved decl) self_ne first_equilibrium first_oneSpell) (first_joins h)

/-- After the shock `7/6` the search gives the spell `(0,2)`. -/
theorem first_run (hk : 2 ≤ kMax) (hL : lMax + 1 ≤ 999) (h : Succeeded lay orc lMax kMax sched mod) :
    tFunc mod 0 (fun _ => 7/6) .none false = .ok ⟨stateOf lay (first 0), 0, 2, 0⟩ := by
  have hx : decl.xbar = -1 := rfl
  refine search_general h (by omega) hL lagsNotExpected self_ne (Nat.zero_le _) hk (first_expected hk h) ?_ ?_ (by omega)
  · rw [declared_stateOf h]
    have ho := first_oneSpell
    refine .inr ⟨by omega, by omega, by omega, ho.all 0 le_rfl (by omega), fun _ => ho.all _ (by omega) (by omega), ?_⟩
    rw [rule_eq, hx, first_y]
    norm_num
  · intro l' k' Y hl' hk' h00 hY hp
    by_cases hs : l' = 0 ∧ k' ≤ 1
    · exfalso
      obtain ⟨rfl, hk1⟩ := hs
      obtain ⟨x, hx1, hx2, hx3⟩ := (C148_characterisation h lagsNotExpected self_ne (Nat.zero_le _) hk' 0 (fun _ => 7/6) Y).1 hY
      have hd : Spec.declared lay Y = x := by
        rw [← declared_stateOf h x]
        exact congrArg _ (funext hx1)
      rw [hd, hx] at hp
      unfold Spec.PassesTests at hp
      simp only [rule_eq] at hp
      rw [joins_iff h] at hx3
      have j1 := hx3 1 (by omega)
      have e0 := eqs_iff.1 (hx2.eqs 0)
      simp only [lag1, shockAt, lag_y, Pi.zero_apply, zero_add, sub_zero] at e0 j1
      rcases hp with ⟨rfl, hp⟩ | ⟨h1, -, -, hp, -, -⟩
      · have j0 := hx3 0 (by omega)
        have := hp 0 (by omega)
        simp only [lag1, shockAt, Pi.zero_apply] at j0
        linarith
      · obtain rfl : k' = 1 := by omega
        have b0 : x 0 1 = -1 := hx2.binding 0 ⟨le_rfl, by omega⟩
        linarith [j1.1, j1.2]
    · by_cases he : l' = 0 ∧ k' = 2
      · exact .inl he
      · refine .inr (.inl ⟨by omega, by omega, ?_⟩)
        unfold LexLt
        omega

/-- the other equilibrium, one period later: the constraint does not bind any more -/
def calm (s : Nat) : Fin 2 → Rat := fun _ => -13/24 * (1/2) ^ s

theorem state_first : (stateOf lay (first 0)) (.inr 0) = -13/12 := first_y0

theorem calm_equilibrium : Spec.RuleEquilibrium (Spec.asSolved decl) (lagVal lay (stateOf lay (first 0))) 0 calm := by
  constructor
  · intro s
    rw [eqs_iff, lag_y, state_first, shockAt_zero]
    rcases s with _ | s
    · simp only [lag1, calm, Pi.zero_apply]; norm_num
    · simp only [lag1, calm, Pi.zero_apply, pow_succ]; ring
  · intro s
    rw [rule_eq]
    show calm s 1 = max (-1) (calm s 0)
    unfold calm
    rw [max_eq_right]
    have := pow_le s
    linarith

theorem calm_expected (h : Succeeded lay orc lMax kMax sched mod) :
    ExpectedPath mod 0 0 (stateOf lay (first 0)) 0 (fun s => stateOf lay (calm s)) := by
  refine C148_unique_path h lagsNotExpected self_ne (Nat.zero_le _) (Nat.zero_le _) _ _ calm
    (Spec.OneSpellOf.solves (D' := Spec.asSolved decl) self_ne calm_equilibrium ⟨fun s hs => ?_, fun s _ _ => by omega⟩) ?_
  · rw [rule_eq] at hs
    replace hs : (-13/24 * (1/2) ^ s : Rat) < -1 := hs
    have := pow_le s
    linarith
  · rw [joins_iff h, state_first]
    intro s _
    rw [shockAt_zero]
    rcases s with _ | s
    · simp only [lag1, calm, Pi.zero_apply]; norm_num
    · simp only [lag1, calm, Pi.zero_apply, pow_succ]; exact ⟨by ring, trivial⟩

theorem calm_run (hk : 1 ≤ kMax) (hL : lMax + 1 ≤ 999) (h : Succeeded lay orc lMax kMax sched mod) :
    tFunc mod (stateOf lay (first 0)) 0 .none false = .ok ⟨stateOf lay (calm 0), 0, 0, 0⟩ := by
  refine search_general h hk hL lagsNotExpected self_ne (Nat.zero_le _) (Nat.zero_le _) (calm_expected h) ?_ ?_ (fun _ => rfl)
  · refine .inl ⟨rfl, fun j _ => ?_⟩
    rw [declared_stateOf h, rule_eq]
    show (-1 : Rat) < -13/24 * (1/2) ^ j
    have := pow_le j
    linarith
  · intro l' k' Y _ _ h00 _ _
    by_cases hk0 : k' = 0
    · exact .inl ⟨h00 hk0, hk0⟩
    · exact .inr (.inr ⟨rfl, by omega⟩)

end Ex14

/-- **C175**: a true report, without a flag.  A shock in period 1, no other shock.  In period 2 the search gives an equilibrium in which the
constraint has stopped binding; `irfs` continues with the one announced in period 1, in which it binds for another period. -/
theorem C175_true_report (lMax kMax : Nat) (hk : 2 ≤ kMax) (hl1 : 1 ≤ lMax) (hL : lMax + 1 ≤ 999) : ∃ mod,
    Succeeded Ex14.lay Ex14.orc lMax kMax (serial kMax) mod ∧
    ∃ s0 s1 s2, irfs mod ⟨[((0 : Fin 1), (7/6 : Rat), ((1 : Nat) : Int))], .none, true, false⟩ 0 3 = .ok [s0, s1, s2] ∧
      s1.mult = false ∧ s2.mult = true ∧ s2.flag = 0 ∧
      ∃ Y Z : Nat → Fin 1 ⊕ Fin 1 → Rat, ExpectedPath mod 0 0 s1.state 0 Y ∧ ExpectedPath mod 0 1 s1.state 0 Z ∧ Z ≠ Y ∧
        Spec.RuleEquilibrium (Spec.asSolved Ex14.decl) (lagVal Ex14.lay s1.state) 0 (Spec.declared Ex14.lay Y) ∧
        Spec.RuleEquilibrium (Spec.asSolved Ex14.decl) (lagVal Ex14.lay s1.state) 0 (Spec.declared Ex14.lay Z) := by
  obtain ⟨mod, h⟩ := Ex14.succeeds (b := -1) lMax kMax (Ex14.serial_perm lMax kMax)
  have hper : ∃ s ∈ [((0 : Fin 1), (7/6 : Rat), ((1 : Nat) : Int))], s.2.2 ≠ 0 := ⟨_, List.mem_singleton_self _, by norm_num⟩
  obtain ⟨xs, hx, hlen, -⟩ := C18_spell_continued_partial h (by omega) (sk := .none) (.inl rfl) _ hper 0 3
  obtain ⟨s0, s1, s2, rfl⟩ : ∃ a b c, xs = [a, b, c] := by
    match xs, hlen with
    | [a, b, c], _ => exact ⟨a, b, c, rfl⟩
  refine ⟨mod, h, s0, s1, s2, hx, ?_⟩
  obtain ⟨f1, f2⟩ := irfs_first_period h (by omega) (show (-1 : Rat) < 0 by norm_num) (.inl rfl) hper (Ex9.shock_other (by omega)) hx
    (s := s0) rfl
  have hne : (fun _ : Fin 1 => (7/6 : Rat)) ≠ 0 := by
    intro g
    have := congrFun g 0
    norm_num at this
  have hrun : tFunc mod s0.state (fun _ => 7/6) .none false = .ok ⟨stateOf Ex14.lay (Ex14.first 0), 0, 2, 0⟩ := by
    rw [f1]; exact Ex14.first_run hk hL h
  have hX : ExpectedPath mod 0 2 s0.state (fun _ => 7/6) (fun s => stateOf Ex14.lay (Ex14.first s)) := by
    rw [f1]; exact Ex14.first_expected hk h
  have hXe : Spec.RuleEquilibrium (Spec.asSolved Ex14.decl) (lagVal Ex14.lay s0.state) (fun _ => 7/6)
      (Spec.declared Ex14.lay (fun s => stateOf Ex14.lay (Ex14.first s))) := by
    rw [f1, Ex14.declared_stateOf h]; exact Ex14.first_equilibrium
  have hno : ∀ i, 1 < i → i ≤ 1 + 0 → Spec.ShocksAt [((0 : Fin 1), (7/6 : Rat), ((1 : Nat) : Int))] i 0 :=
    fun i h1 h2 => by omega
  obtain ⟨e1, e2⟩ := irfs_continues h (by omega) (.inl rfl) hper hx (j := 1) (s0 := s0) rfl (Ex9.shock_at (7/6) 1) hne hrun hX hno
    (s := s1) rfl
  have hen : tFunc mod s1.state 0 .none false = .ok ⟨stateOf Ex14.lay (Ex14.calm 0), 0, 0, 0⟩ := by
    rw [e1]; exact Ex14.calm_run (by omega) hL h
  have hY : ExpectedPath mod 0 0 s1.state 0 (fun s => stateOf Ex14.lay (Ex14.calm s)) := by rw [e1]; exact Ex14.calm_expected h
  have hel : elapsed s1.l s1.k 1 = (0, 1) := by
    obtain ⟨e3, e4⟩ := Prod.mk.inj e2
    rw [e3, e4]; rfl
  obtain ⟨Z, z1, z2, z3⟩ := C175_two_equilibria_partial h (by omega) hl1 Ex14.lagsNotExpected Ex14.self_ne (.inl rfl) hper hx
    (j := 1) (s0 := s0) rfl (Ex9.shock_at (7/6) 1) hne hrun hX hXe hno (s := s1) rfl hen hY (fun t => by
      rw [Ex14.declared_stateOf h, Ex14.rule_eq]
      show (-13/24 * (1/2) ^ t : Rat) ≠ -1
      have := Ex14.pow_le t
      intro g
      linarith)
  have hdiff : ((0 : Nat), (0 : Nat)) ≠ elapsed s1.l s1.k 1 := by rw [hel]; decide
  refine ⟨?_, (C175_reported_iff h (by omega) (.inl rfl) hx 2 s2 rfl).2
    ⟨2, le_rfl, hper, Ex9.shock_other (by omega), s1, _, rfl, hen, hdiff⟩, ?_, _, Z, hY, by rw [hel] at z1; exact z1, z3.2 hdiff, ?_, z2⟩
  · by_contra hn
    rw [Bool.not_eq_false] at hn
    obtain ⟨j, hj, hd⟩ := (C175_reported_iff h (by omega) (.inl rfl) hx 1 s1 rfl).1 hn
    rcases j with _ | _ | j
    · exact f2 hd
    · have := hd.2.1
      rw [shocksAt_iff, ← (shocksAt_iff _ _ _).1 (Ex9.shock_at (7/6) 1)] at this
      exact hne this.symm
    · omega
  · by_contra hn
    obtain ⟨j, hj, eps, a1, a2, s, r, a3, a4, a5⟩ := (C175_flag_iff h (by omega) (.inl rfl) hper hx 2 s2 rfl).1 hn
    by_cases hj1 : j = 1
    · subst hj1
      cases a3
      rw [shocksAt_iff, ← (shocksAt_iff _ _ _).1 (Ex9.shock_at (7/6) 1)] at a1
      subst a1
      rw [hrun] at a4
      cases a4
      exact a5 rfl
    · rw [shocksAt_iff, ← (shocksAt_iff _ _ _).1 (Ex9.shock_other hj1)] at a1
      exact a2 a1
  · rw [e1, Ex14.declared_stateOf h]; exact Ex14.calm_equilibrium

/-! ### A false alarm, and silence -/

/-- **C175** (fails in general): `irfs` reports multiple equilibria although there is only one.  From a state below the bound, with a shock in
period 1, the solution without the constraint is imposed in period 0. -/
theorem C175_false_alarm_refuted : ∃ mod, Succeeded Ex1.lay Ex1.orc 3 2 (serial 2) mod ∧
    ∃ s0, irfs mod ⟨[((0 : Fin 1), (1 : Rat), 1)], .bool false, forceDefault none (.bool false), false⟩ (fun _ => -4) 1 = .ok [s0] ∧
      s0.mult = true ∧ s0.flag = 0 ∧
      ∀ (x y : Nat → Fin 2 → Rat) (n n' : Nat), Spec.Equilibrium Ex1.decl (lagVal Ex1.lay (fun _ => -4)) 0 x →
        Spec.Equilibrium Ex1.decl (lagVal Ex1.lay (fun _ => -4)) 0 y → Spec.JoinsLinear Ex1.lay mod (fun _ => -4) 0 x n →
        Spec.JoinsLinear Ex1.lay mod (fun _ => -4) 0 y n' → x = y := by
  obtain ⟨mod, h⟩ := ex1_succeeds 3 2
  obtain ⟨c, hm⟩ := genSys_ok h.perm h.gen
  obtain ⟨c0, -⟩ := Ex1.cells (b := -1) (by omega) hm
  have := h.states
  have e0 : shkVec [((0 : Fin 1), (1 : Rat), (1 : Int))] 0 = 0 := by simp [shkVec]
  obtain ⟨en, hen, hb⟩ := C02_never_below_bound h (by omega) (by simp [yaml, Input.ofYaml, Ex1.declB]) (fun _ => -4) (0 : Fin 1 → Rat)
  have hr := tFunc_pair hm (fun _ => -4) (0 : Fin 1 → Rat) (Nat.zero_le 3) (Nat.zero_le 2)
  simp only [Nat.cast_zero] at hr
  have hlong : tooLong mod.lks (.pair 0 0) = false := by
    simp [tooLong]
  have hlow : Ex1.lay.val (xPath c 0 0 (q0Of (fun _ : Fin 1 ⊕ Fin 1 => -4) 0) 0) (.inl Ex1.decl.cvar) < Ex1.decl.xbar := by
    simp only [xPath_zero, c0]
    simp [Layout.val, Ex1.layB, Ex1.declB, Ex1.omg, q0Of, mulVec, dotProduct, Fintype.sum_sum_type]
    norm_num
  refine ⟨mod, h, ⟨xPath c 0 0 (q0Of (fun _ : Fin 1 ⊕ Fin 1 => -4) 0) 0, 0, 0, 0, decide (SetK.pair 0 0 ≠ .pair en.l en.k)⟩, ?_, ?_, rfl,
    fun x y n n' hx hy jx jy => C161_unique h (Ex1.noReversal h) hx hy jx jy⟩
  · simp [irfs, irfRun, irfStep, forceDefault, SetK.any, anyPeriod, e0, anyNonzero_false.2, hen, continued, hlong, hr]
  · refine decide_eq_true fun e => ?_
    obtain ⟨r, b1, b2, -, -⟩ := C14_impose_found_equilibrium h (by omega) _ _ en hen
    rw [← e, hr] at b1
    cases b1
    rw [← b2] at hb
    exact absurd hb (not_le.2 hlow)

/-- **C175** (fails in general): `irfs` reports nothing although there are two equilibria: at the steady state, before a shock in period 1. -/
theorem C175_silence_refuted {lMax kMax : Nat} {sched : Nat → List Nat} {mod : Model (Fin 1) (Fin 1) (Fin 1) (Fin 1) Rat}
    (h : Succeeded Ex12.lay Ex12.orc lMax kMax sched mod) (hk : 1 ≤ kMax) :
    ∃ s0, irfs mod ⟨[((0 : Fin 1), (1 : Rat), ((1 : Nat) : Int))], .none, true, false⟩ 0 1 = .ok [s0] ∧ s0.mult = false ∧
      ∃ x x' : Nat → Fin 2 → Rat, x ≠ x' ∧
        Spec.Equilibrium Ex12.decl (lagVal Ex12.lay (0 : Fin 1 ⊕ Fin 1 → Rat)) 0 x ∧ Spec.JoinsLinear Ex12.lay mod 0 0 x 0 ∧
        Spec.Equilibrium Ex12.decl (lagVal Ex12.lay (0 : Fin 1 ⊕ Fin 1 → Rat)) 0 x' ∧ Spec.JoinsLinear Ex12.lay mod 0 0 x' 1 := by
  have hper : ∃ s ∈ [((0 : Fin 1), (1 : Rat), ((1 : Nat) : Int))], s.2.2 ≠ 0 := ⟨_, List.mem_singleton_self _, by norm_num⟩
  obtain ⟨xs, hx, hlen, -⟩ := C18_spell_continued_partial h (by omega) (sk := .none) (.inl rfl) _ hper 0 1
  obtain ⟨s0, rfl⟩ := List.length_eq_one_iff.1 hlen
  obtain ⟨-, f2⟩ := irfs_first_period h hk (show (-1 : Rat) < 0 by norm_num) (.inl rfl) hper (Ex9.shock_other (by omega)) hx
    (s := s0) rfl
  refine ⟨s0, hx, ?_, fun _ => 0, Ex12.other, ?_, Ex12.zero_equilibrium, Ex12.zero_joins h, Ex12.other_equilibrium, Ex12.other_joins h⟩
  · by_contra hn
    rw [Bool.not_eq_false] at hn
    obtain ⟨j, hj, hd⟩ := (C175_reported_iff h hk (.inl rfl) hx 0 s0 rfl).1 hn
    obtain rfl : j = 0 := by omega
    exact f2 hd
  · intro e
    have := congrFun (congrFun e 0) 0
    rw [Ex12.other_y] at this
    norm_num at this

/-- **C175**: the search fails in a period without a shock (flag 2, `k_max` too small), `irfs` returns no flag. -/
theorem C175_failure_unreported : ∃ mod, Succeeded Ex1.lay Ex1.orc 3 1 (serial 1) mod ∧
    (∃ r, tFunc mod (fun _ => -8) 0 .none false = .ok r ∧ r.flag = 2) ∧
    ∃ s0, irfs mod ⟨[((0 : Fin 1), (1 : Rat), ((1 : Nat) : Int))], .none, true, false⟩ (fun _ => -8) 1 = .ok [s0] ∧ s0.flag = 0 := by
  obtain ⟨mod, h⟩ := ex1_succeeds 3 1
  have hper : ∃ s ∈ [((0 : Fin 1), (1 : Rat), ((1 : Nat) : Int))], s.2.2 ≠ 0 := ⟨_, List.mem_singleton_self _, by norm_num⟩
  obtain ⟨xs, hx, hlen, -⟩ := C18_spell_continued_partial h (by omega) (sk := .none) (.inl rfl) _ hper (fun _ => -8) 1
  obtain ⟨s0, rfl⟩ := List.length_eq_one_iff.1 hlen
  obtain ⟨r, h1, -, -, h4, -⟩ := Ex1.low_run 3 (by omega) h (fun _ => -8) 0 (by norm_num)
  refine ⟨mod, h, ⟨r, h1, h4⟩, s0, hx, ?_⟩
  by_contra hn
  obtain ⟨j, hj, eps, a1, a2, -⟩ := (C175_flag_iff h (by omega) (.inl rfl) hper hx 0 s0 rfl).1 hn
  rw [shocksAt_iff, ← (shocksAt_iff _ _ _).1 (Ex9.shock_other (show j ≠ 1 by omega))] at a1
  exact a2 a1

end Pydsge
