import Verif.Props.Compare
import Verif.Examples.Ex17

/-!
# C188: a model that meets the hypotheses
-/

set_option autoImplicit false
set_option linter.unusedSectionVars false
set_option linter.unusedSimpArgs false

namespace Pydsge

open Matrix Pydsge.Engine Pydsge.Spec Pydsge.Tools Pydsge.GenSys

namespace Ex17

variable {b : Rat} {lMax kMax : Nat} {sched : Nat → List Nat} {mod : Model (Fin 1) (Fin 1) (Fin 1) (Fin 1) Rat}

theorem lagsNotExpected : Spec.LagsNotExpected (declB b) := Spec.LagsNotExpected.of_rc rfl

theorem self_ne : (declB b).rb (declB b).cvar ≠ 1 := by
  simp [declB]

theorem eqs_iff {xl : Fin 2 → Rat} {eps : Fin 1 → Rat} {x : Nat → Fin 2 → Rat} {s : Nat} :
    EqsHold (declB b) xl eps x s ↔ x s 0 = prev xl x s 0 - 4/3 * x s 1 + shockAt eps s 0 := by
  constructor
  · intro hh
    have h0 := congrFun hh 0
    simp [declB, mulVec, dotProduct, Fin.sum_univ_two] at h0
    linarith
  · intro h0
    funext i
    simp [declB, mulVec, dotProduct, Fin.sum_univ_two]
    linarith

theorem rule_eq {xl : Fin 2 → Rat} {eps : Fin 1 → Rat} {x : Nat → Fin 2 → Rat} {s : Nat} :
    Spec.ruleAt (Spec.asSolved (declB b)) xl eps x s = 3/4 * x s 0 := by
  unfold Spec.ruleAt
  rw [Spec.ruleValue_eq]
  simp [Spec.asSolved, declB, dotProduct, Fin.sum_univ_two]

/-- the response to announced disturbances -/
theorem response {d : Nat → Fin 2 → Rat} {w : Nat → Rat} (hd : Spec.AnnouncedResponse (layB b) mod d w) (s : Nat) :
    d s 0 = 1/2 * prev 0 d s 0 - 2/3 * w s ∧ d s 1 = 3/8 * prev 0 d s 0 + 1/2 * w s := by
  have h1 := eqs_iff.1 (hd.eqs s)
  have h2 := hd.rule s
  rw [rule_eq] at h2
  rw [shockAt_zero] at h1
  change d s 1 = _ at h2
  simp only [Pi.zero_apply, add_zero] at h1
  constructor <;> linarith

/-- announced increases of `r` lower `y` in all periods -/
theorem lowers_y (t : Nat) : Spec.Lowers (layB b) mod 0 t := by
  intro d w hd hw
  induction t with
  | zero =>
    have h1 := (response hd 0).1
    have h2 := hw 0
    simp only [prev, Pi.zero_apply] at h1
    linarith
  | succ t ih =>
    have h1 := (response hd (t + 1)).1
    have h2 := hw (t + 1)
    simp only [prev] at h1
    linarith

/-- and lower `r` in all later periods for which nothing is announced. -/
theorem lowersElsewhere : Spec.LowersElsewhere (layB b) mod := by
  intro d w t hd hw ht
  have h1 := (response hd t).2
  rw [ht, mul_zero, add_zero] at h1
  show d t 1 ≤ 0
  rw [h1]
  cases t with
  | zero => simp [prev]
  | succ t =>
    have := lowers_y t d w hd hw
    simp only [prev]
    linarith

theorem noReversalOf : Spec.NoReversalOf (layB b) mod := by
  intro d w n h1 h2 h3 h4
  have hd : Spec.AnnouncedResponse (layB b) mod d w := ⟨h1, h2, n, h3⟩
  have key : ∀ s, prev 0 d s 0 = 0 → d s 0 = 0 ∧ d s 1 = 0 := by
    intro s hs
    obtain ⟨a1, a2⟩ := response hd s
    rw [hs] at a1 a2
    have h5 : w s * d s 1 ≤ 0 := h4 s
    rw [a2] at h5
    have hw : w s = 0 := by nlinarith
    rw [a1, a2, hw]
    norm_num
  have hp : ∀ s, prev 0 d s 0 = 0 := by
    intro s
    induction s with
    | zero => rfl
    | succ s ih => exact (key s ih).1
  funext s v
  fin_cases v
  · exact (key s (hp s)).1
  · exact (key s (hp s)).2

theorem val_y (st : Fin 1 ⊕ Fin 1 → Rat) : (layB b).val st (.inl 0) = st (.inr 0) := (layB b).val_z st 0
theorem val_r (st : Fin 1 ⊕ Fin 1 → Rat) : (layB b).val st (.inl 1) = st (.inl 0) := (layB b).val_p st 0

/-- the linear model keeps states with a lower `y` so, if the shock is not higher -/
theorem linearOrders (h : Succeeded (layB b) orc lMax kMax sched mod) {e e' : Fin 1 → Rat} (he : e 0 ≤ e' 0) :
    Spec.LinearOrders (layB b) mod (fun v => v = 0) (fun _ => False) e e' := by
  obtain ⟨c, hm⟩ := genSys_ok h.perm h.gen
  have hkl := hm.kl
  simp only [orc, Except.ok.injEq, Prod.mk.injEq] at hkl
  intro st st' r r' ho h1 h2
  rw [tFunc_linear_eq h, ← hkl.1, ← hkl.2] at h1 h2
  cases h1
  cases h2
  have a1 := ho.1 0 rfl
  rw [val_y, val_y] at a1
  refine ⟨⟨fun v hv => ?_, fun v hv => hv.elim⟩, ?_⟩
  · subst hv
    rw [val_y, val_y]
    simp [mulVec, dotProduct, Fintype.sum_sum_type, lam, omg, q0Of]
    linarith
  · show (layB b).val _ (.inl 1) ≤ (layB b).val _ (.inl 1)
    rw [val_r, val_r]
    simp [mulVec, dotProduct, Fintype.sum_sum_type, lam, omg, q0Of]
    linarith

/-- what `y` starts from in each period -/
def base (b : Rat) (st : Fin 1 ⊕ Fin 1 → Rat) (eps : Fin 1 → Rat) (x : Nat → Fin 2 → Rat) (s : Nat) : Rat :=
  prev (lagVal (layB b) st) x s 0 + shockAt eps s 0

theorem base_zero (st : Fin 1 ⊕ Fin 1 → Rat) (eps : Fin 1 → Rat) (x : Nat → Fin 2 → Rat) : base b st eps x 0 = st (.inr 0) + eps 0 := by
  have hl0 : lagVal (layB b) st 0 = st (.inr 0) := by
    unfold lagVal
    rw [if_neg (not_inall 0)]
    exact (layB b).val_z st 0
  simp only [base, prev, hl0, shockAt]

theorem base_succ (st : Fin 1 ⊕ Fin 1 → Rat) (eps : Fin 1 → Rat) (x : Nat → Fin 2 → Rat) (s : Nat) : base b st eps x (s + 1) = x s 0 := by
  simp [base, prev, shockAt]

instance : Fact ((-1 : Rat) < 0) := ⟨by norm_num⟩
instance : Fact ((-2 : Rat) < 0) := ⟨by norm_num⟩

variable [hneg : Fact (b < 0)]

section
variable (h : Succeeded (layB b) orc lMax kMax sched mod) {l k : Nat} (hl : l ≤ lMax) (hk : k ≤ kMax) {st : Fin 1 ⊕ Fin 1 → Rat}
  {eps : Fin 1 → Rat} {X : Nat → Fin 1 ⊕ Fin 1 → Rat} (hX : ExpectedPath mod l k st eps X)
include h hl hk hX

theorem path_binds {s : Nat} (hs : BindsAt l k s) : Spec.declared (layB b) X s 0 = base b st eps (Spec.declared (layB b) X) s + -4/3 * b := by
  have hp := C148_paths_solve h lagsNotExpected self_ne hl hk st eps X hX
  have h1 : EqsHold (declB b) (lagVal (layB b) st) eps (Spec.declared (layB b) X) s := hp.eqs s
  have h2 : Spec.declared (layB b) X s 1 = b := hp.binding s hs
  rw [eqs_iff, h2] at h1
  unfold base
  linarith

theorem path_slack {s : Nat} (hs : ¬ BindsAt l k s) : Spec.declared (layB b) X s 0 = 1/2 * base b st eps (Spec.declared (layB b) X) s := by
  have hp := C148_paths_solve h lagsNotExpected self_ne hl hk st eps X hX
  have h1 : EqsHold (declB b) (lagVal (layB b) st) eps (Spec.declared (layB b) X) s := hp.eqs s
  have h2 : Spec.declared (layB b) X s 1 = 3/4 * Spec.declared (layB b) X s 0 := by
    rw [← rule_eq (xl := lagVal (layB b) st) (eps := eps)]
    exact (rule_iff (D := Spec.asSolved (declB b)) (self_ne (b := b)) (lagVal (layB b) st) eps (Spec.declared (layB b) X) s).2 (hp.slack s hs)
  rw [eqs_iff, h2] at h1
  unfold base
  linarith

/-- in and out of the spell, the constraint equation is at or below the bound exactly if the base is -/
theorem rule_le_iff (s : Nat) : (3/4 * Spec.declared (layB b) X s 0 ≤ b ↔ base b st eps (Spec.declared (layB b) X) s ≤ 8/3 * b) ∧
    (3/4 * Spec.declared (layB b) X s 0 < b ↔ base b st eps (Spec.declared (layB b) X) s < 8/3 * b) := by
  by_cases hs : BindsAt l k s
  · rw [path_binds h hl hk hX hs]
    constructor <;> constructor <;> intro g <;> linarith
  · rw [path_slack h hl hk hX hs]
    constructor <;> constructor <;> intro g <;> linarith

/-- once above, the base stays above -/
theorem base_above {s : Nat} (hs : 8/3 * b < base b st eps (Spec.declared (layB b) X) s) (n : Nat) :
    8/3 * b < base b st eps (Spec.declared (layB b) X) (s + n) := by
  have hn := hneg.out
  induction n with
  | zero => exact hs
  | succ n ih =>
    rw [← Nat.add_assoc, base_succ]
    by_cases hb : BindsAt l k (s + n)
    · rw [path_binds h hl hk hX hb]
      linarith
    · rw [path_slack h hl hk hX hb]
      linarith

/-- in a period in which the constraint does not bind, it is enough not to be below -/
theorem base_above' {s : Nat} (hs : 8/3 * b ≤ base b st eps (Spec.declared (layB b) X) s) (hb : ¬ BindsAt l k s) (n : Nat) :
    8/3 * b < base b st eps (Spec.declared (layB b) X) (s + 1 + n) := by
  have hn := hneg.out
  refine base_above h hl hk hX ?_ n
  rw [base_succ, path_slack h hl hk hX hb]
  linarith

/-- what passes the tests starts at once, and is an equilibrium -/
theorem passes_equilibrium
    (hp : Spec.PassesTests (declB b).xbar (Spec.ruleAt (Spec.asSolved (declB b)) (lagVal (layB b) st) eps (Spec.declared (layB b) X)) (lMax + 1) l k) :
    (1 ≤ k → l = 0) ∧ (∀ s, BindsAt l k s → base b st eps (Spec.declared (layB b) X) s ≤ 8/3 * b) ∧
      ∀ s, ¬ BindsAt l k s → 8/3 * b ≤ base b st eps (Spec.declared (layB b) X) s := by
  have hx : (declB b).xbar = b := rfl
  unfold Spec.PassesTests at hp
  simp only [rule_eq, hx] at hp
  have le := fun s => (rule_le_iff h hl hk hX s).1
  have lt := fun s => (rule_le_iff h hl hk hX s).2
  rcases hp with ⟨rfl, hp⟩ | ⟨c1, c2, c3, c4, c5, c6⟩
  · have h0 : 8/3 * b < base b st eps (Spec.declared (layB b) X) 0 := by
      by_contra hn
      exact absurd ((le 0).2 (not_lt.1 hn)) (not_le.2 (hp 0 (by omega)))
    refine ⟨by omega, fun s hs => by unfold BindsAt at hs; omega, fun s _ => ?_⟩
    have := base_above h hl hk hX h0 s
    rw [Nat.zero_add] at this
    exact this.le
  · have e0 : l = 0 := by
      by_contra hn
      have h1 : 8/3 * b ≤ base b st eps (Spec.declared (layB b) X) 0 := by
        by_contra hn'
        exact absurd ((lt 0).2 (not_le.1 hn')) (not_lt.2 (c2 (by omega)))
      have h2 := base_above' h hl hk hX h1 (by unfold BindsAt; omega) (l - 1)
      rw [show 0 + 1 + (l - 1) = l by omega] at h2
      exact absurd ((le l).1 c4) (not_le.2 h2)
    subst e0
    refine ⟨fun _ => rfl, fun s hs => ?_, fun s hs => ?_⟩
    · unfold BindsAt at hs
      by_contra hn
      have h2 := base_above h hl hk hX (not_le.1 hn) (k - 1 - s)
      rw [show s + (k - 1 - s) = k - 1 by omega] at h2
      rcases Nat.lt_or_ge k 2 with h3 | h3
      · obtain rfl : k = 1 := by omega
        exact absurd ((le 0).1 c4) (not_le.2 h2)
      · have := c5 h3
        rw [Nat.zero_add] at this
        exact absurd ((le _).1 this) (not_le.2 h2)
    · have h1 : 8/3 * b ≤ base b st eps (Spec.declared (layB b) X) k := by
        by_contra hn'
        rw [Nat.zero_add] at c6
        exact absurd ((lt k).2 (not_le.1 hn')) (not_lt.2 c6)
      have hs' : k ≤ s := by
        unfold BindsAt at hs
        omega
      rcases Nat.eq_or_lt_of_le hs' with rfl | hs'
      · exact h1
      · have h2 := base_above' h hl hk hX h1 (by unfold BindsAt; omega) (s - k - 1)
        rw [show k + 1 + (s - k - 1) = s by omega] at h2
        exact h2.le

end

/-- everything that is reported without an error is an equilibrium -/
theorem flagMeansEquilibrium (h : Succeeded (layB b) orc lMax kMax sched mod) (hk1 : 1 ≤ kMax) : Spec.FlagMeansEquilibrium (layB b) mod := by
  intro st e r hr hf
  obtain ⟨hl, hk⟩ := found_inside h hk1 hr
  obtain ⟨c, hm⟩ := genSys_ok h.perm h.gen
  have hz := h.states
  have hnl := noLagFwd_of_not_expected (Z0 := Z0) (Z1 := Z1) (lagsNotExpected (b := b))
  have hX := (expectedPath_iff hm h.orc h.noTiny h.square h.states hnl hl hk st e (xPath c r.l r.k (q0Of st e))).2 fun _ => rfl
  obtain ⟨-, hp⟩ := reported_passes h hk1 lagsNotExpected self_ne hr hf hX
  obtain ⟨-, h1, h2⟩ := passes_equilibrium h hl hk hX hp
  have hs := C148_paths_solve h lagsNotExpected self_ne hl hk st e _ hX
  refine ⟨_, hX, hs.eqs, fun s => ?_⟩
  rw [rule_eq]
  by_cases hb : BindsAt r.l r.k s
  · have h3 : Spec.declared (layB b) (xPath c r.l r.k (q0Of st e)) s 1 = b := hs.binding s hb
    have h4 := (rule_le_iff h hl hk hX s).1.2 (h1 s hb)
    exact h3.trans (max_eq_left h4).symm
  · have h3 := (rule_iff (D := Spec.asSolved (declB b)) (self_ne (b := b)) (lagVal (layB b) st) e (Spec.declared (layB b) (xPath c r.l r.k (q0Of st e))) s).2
      (hs.slack s hb)
    rw [rule_eq] at h3
    have h4 : b ≤ 3/4 * Spec.declared (layB b) (xPath c r.l r.k (q0Of st e)) s 0 := by
      by_contra hn
      exact absurd ((rule_le_iff h hl hk hX s).2.1 (not_le.1 hn)) (not_lt.2 (h2 s hb))
    exact h3.trans (max_eq_right h4).symm

/-- with `u = y(-1) + e` such that `u + 4/3 j` is below `8/3 * b` for exactly `k` periods -/
theorem run (h : Succeeded (layB b) orc lMax kMax sched mod) {k : Nat} (hk1 : 1 ≤ k) (hk : k ≤ kMax) (hL : lMax + 1 ≤ 999) {st : Fin 1 ⊕ Fin 1 → Rat}
    {eps : Fin 1 → Rat} (h1 : st (.inr 0) + eps 0 + -4/3 * b * (k - 1 : Nat) < 8/3 * b) (h2 : 8/3 * b < st (.inr 0) + eps 0 + -4/3 * b * (k : Nat)) :
    ∃ r, tFunc mod st eps .none false = .ok r ∧ r.flag = 0 ∧ r.l = 0 ∧ r.k = k ∧ r.state (.inr 0) = st (.inr 0) + eps 0 + -4/3 * b := by
  obtain ⟨c, hm⟩ := genSys_ok h.perm h.gen
  have hz := h.states
  have hx : (declB b).xbar = b := rfl
  have hnl := noLagFwd_of_not_expected (Z0 := Z0) (Z1 := Z1) (lagsNotExpected (b := b))
  have path : ∀ {k' : Nat}, k' ≤ kMax → ∀ {Y}, ExpectedPath mod 0 k' st eps Y → ∀ j ≤ k',
      base b st eps (Spec.declared (layB b) Y) j = st (.inr 0) + eps 0 + -4/3 * b * (j : Nat) := by
    intro k' hk' Y hY j hj
    induction j with
    | zero => rw [base_zero]; simp
    | succ j ih =>
      rw [base_succ, path_binds h (Nat.zero_le _) hk' hY (by unfold BindsAt; omega), ih (by omega)]
      push_cast
      ring
  have hX := (expectedPath_iff hm h.orc h.noTiny h.square h.states hnl (Nat.zero_le _) hk st eps (xPath c 0 k (q0Of st eps))).2 fun _ => rfl
  generalize xPath c 0 k (q0Of st eps) = X at hX
  have le := fun s => (rule_le_iff h (Nat.zero_le _) hk hX s).1
  have hb : ∀ j ≤ k, _ := path hk hX
  have cast : ∀ {m n : Nat}, m ≤ n → (-4/3 * b * (m : Rat)) ≤ -4/3 * b * n := fun {m n} hmn => by
    have : (m : Rat) ≤ n := by exact_mod_cast hmn
    have := mul_le_mul_of_nonneg_left this (show 0 ≤ -4/3 * b by have := hneg.out; linarith)
    linarith
  refine ⟨⟨X 0, 0, k, 0⟩, ?_, rfl, rfl, rfl, ?_⟩
  · refine finds_general h (by omega) hL lagsNotExpected self_ne (Nat.zero_le _) hk hX ⟨fun s hs => by omega, fun s hs => ?_, fun s hs => ?_⟩
      (fun _ => ?_) (by omega)
    · rw [rule_eq, hx]
      unfold BindsAt at hs
      rw [le, hb s (by omega)]
      have := cast (show s ≤ k - 1 by omega)
      linarith
    · rw [rule_eq, hx, ← not_le, le, not_le]
      rw [Nat.zero_add] at hs
      have := base_above h (Nat.zero_le _) hk hX (s := k) (by rw [hb k le_rfl]; exact h2) (s - k)
      rwa [show k + (s - k) = s by omega] at this
    · intro l' k' Y hl' hk' hY hp
      have hp2 := passes_equilibrium h hl' hk' hY hp
      obtain ⟨g1, g2, g3⟩ := hp2
      rcases Nat.eq_zero_or_pos k' with rfl | hk0
      · exfalso
        have := g3 0 (by unfold BindsAt; omega)
        rw [base_zero] at this
        have : (0 : Rat) ≤ -4/3 * b * (k - 1 : Nat) := mul_nonneg (by have := hneg.out; linarith) (Nat.cast_nonneg _)
        linarith
      · obtain rfl := g1 hk0
        have pb := path hk' hY
        refine ⟨?_, .inr rfl⟩
        rcases Nat.lt_trichotomy k' k with g | g | g
        · have a1 := g3 k' (by unfold BindsAt; omega)
          rw [pb k' le_rfl] at a1
          have := cast (show k' ≤ k - 1 by omega)
          linarith
        · exact g
        · have a1 := g2 k (by unfold BindsAt; omega)
          rw [pb k g.le] at a1
          linarith
  · have := path_binds h (Nat.zero_le _) hk hX (s := 0) (by unfold BindsAt; omega)
    rw [base_zero] at this
    rw [← this]
    exact (val_y (X 0)).symm

end Ex17

/-- **C188**: the hypotheses are met, for all sizes of tables. After the shocks `-5` and `-3` the constraint binds for two periods and one period;
`y` is lower after the larger shock. -/
theorem C188_hypotheses_met (lMax kMax : Nat) (hk : 2 ≤ kMax) (hL : lMax + 1 ≤ 999) : ∃ mod, Succeeded Ex17.lay Ex17.orc lMax kMax (serial kMax) mod ∧
    Spec.LagsNotExpected Ex17.decl ∧ Ex17.decl.rb Ex17.decl.cvar ≠ 1 ∧ Spec.NoReversalOf Ex17.lay mod ∧ Spec.LowersElsewhere Ex17.lay mod ∧
    (∀ v t, v = 0 → Spec.Lowers Ex17.lay mod v t) ∧
    (∀ e e', e 0 ≤ e' 0 → Spec.LinearOrders Ex17.lay mod (fun v => v = 0) (fun _ => False) e e') ∧
    Spec.FlagMeansEquilibrium Ex17.lay mod ∧
    ∃ res res', simLoop mod false 0 [fun _ => -5] = .ok res ∧ res.flag = 0 ∧ res.LK = [(0, 2)] ∧
      simLoop mod false 0 [fun _ => -3] = .ok res' ∧ res'.flag = 0 ∧ res'.LK = [(0, 1)] ∧
      res.X.map (fun s => s (.inr 0)) = [0, -11/3] ∧ res'.X.map (fun s => s (.inr 0)) = [0, -5/3] := by
  obtain ⟨mod, h⟩ := Ex17.succeeds (b := -1) lMax kMax (fun _ _ => List.Perm.refl _)
  obtain ⟨r, a1, a2, a3, a4, a5⟩ := Ex17.run h (k := 2) (by omega) hk hL (st := 0) (eps := fun _ => -5) (by norm_num) (by norm_num)
  obtain ⟨r', b1, b2, b3, b4, b5⟩ := Ex17.run h (k := 1) le_rfl (by omega) hL (st := 0) (eps := fun _ => -3) (by norm_num) (by norm_num)
  obtain ⟨rs, rl, rk, rf⟩ := r
  obtain ⟨rs', rl', rk', rf'⟩ := r'
  simp only at a2 a3 a4 a5 b2 b3 b4 b5
  subst a2 a3 a4 b2 b3 b4
  refine ⟨mod, h, Ex17.lagsNotExpected, Ex17.self_ne, Ex17.noReversalOf, Ex17.lowersElsewhere, ?_, fun e e' he => Ex17.linearOrders h he,
    Ex17.flagMeansEquilibrium h (by omega), _, _, by simp only [simLoop, a1]; rfl, rfl, rfl, by simp only [simLoop, b1]; rfl, rfl, rfl, ?_, ?_⟩
  · rintro v t rfl
    exact Ex17.lowers_y t
  · simp only [List.map_cons, List.map_nil, a5]
    norm_num
  · simp only [List.map_cons, List.map_nil, b5]
    norm_num

end Pydsge
