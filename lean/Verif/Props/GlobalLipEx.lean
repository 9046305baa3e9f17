import Verif.Props.GlobalLip
import Verif.Props.FoundLag
import Verif.Props.OneEqEx

/-!
# C177: uniqueness gives regularity; a case that meets the hypotheses
-/

set_option autoImplicit false
set_option linter.unusedSectionVars false
set_option linter.unusedSimpArgs false

namespace Pydsge

open Matrix Pydsge.Engine Pydsge.Spec Pydsge.Tools Pydsge.GenSys

section Yaml
variable {E ν ε o K : Type} [Fintype E] [Fintype ν] [Fintype ε] [Fintype o]
  [DecidableEq E] [DecidableEq ν] [DecidableEq ε] [Field K] [LinearOrder K] [IsStrictOrderedRing K]
variable {H z p : Type} [DecidableEq H] [Fintype H] [Fintype z] [Fintype p] [DecidableEq z] [DecidableEq p]
variable {D : Declared E ν ε K} {Z0 : Matrix o ν K} {Z1 : o → K} {tol : K} [DecidablePred (inall tol (yaml D Z0 Z1))]
  {lay : Layout tol (yaml D Z0 Z1) H z p}
  {orc : Oracle (Rows E H ε) (z ⊕ ε) p K} {lMax kMax : Nat} {sched : Nat → List Nat} {mod : Model z ε p o K}

/-- **C177**: if announced disturbances do not reverse (the condition for unique equilibria of C173), and the paths that pass the tests of the
search are equilibria in all periods, all spells that pass agree. -/
theorem C177_unique_determined (h : Succeeded lay orc lMax kMax sched mod) (hlag : Spec.LagsNotExpected D) (hself : D.rb D.cvar ≠ 1)
    (hP : Spec.NoReversalOf lay mod) {st : p ⊕ z → K} {e : ε → K}
    (heq : ∀ l k X, l ≤ lMax → k ≤ kMax → Spec.Passes mod lMax kMax st e l k → ExpectedPath mod l k st e X →
      Spec.RuleEquilibrium (Spec.asSolved D) (lagVal lay st) e (Spec.declared lay X)) : Spec.Determined mod lMax kMax st e := by
  intro l k l' k' hl hk hl' hk' hp hp' r r' hr hr'
  obtain ⟨c, hm⟩ := genSys_ok h.perm h.gen
  have hz := h.states
  have hf := noLagFwd_of_not_expected (Z0 := Z0) (Z1 := Z1) hlag
  have hX : ∀ {a b}, a ≤ lMax → b ≤ kMax → ExpectedPath mod a b st e (xPath c a b (q0Of st e)) := fun ha hb =>
    (expectedPath_iff hm h.orc h.noTiny h.square h.states hf ha hb st e _).2 fun _ => rfl
  rw [tFunc_pair hm st e hl hk] at hr
  rw [tFunc_pair hm st e hl' hk'] at hr'
  rw [← Except.ok.inj hr, ← Except.ok.inj hr']
  obtain ⟨y, hy1, hy2, hy3⟩ := (C148_characterisation h hlag hself hl' hk' st e _).1 (hX hl' hk')
  have hy : Spec.declared lay (xPath c l' k' (q0Of st e)) = y := by
    funext s v
    unfold Spec.declared
    rw [hy1 s, val_stateOf lay h.square]
    rfl
  have he := heq l' k' _ hl' hk' hp' (hX hl' hk')
  rw [hy] at he
  have := C173_reported_partial h hlag hself hP hl hk (hX hl hk) (heq l k _ hl hk hp (hX hl hk)) he hy3 0
  simp only
  rw [this, hy1 0]

end Yaml

/-! ## The first example with tables up to `(0,1)` -/

/-- What the search looks at. -/
theorem Ex1.values01 {sched : Nat → List Nat} {mod : Model (Fin 1) (Fin 1) (Fin 1) (Fin 1) Rat} (h : Succeeded Ex1.lay Ex1.orc 0 1 sched mod)
    {c : Nat → Nat → Cell (Fin 1 ⊕ Fin 1) (Fin 1) Rat} (hm : SolvedModel Ex1.lay Ex1.orc 0 1 mod c) (st : Fin 1 ⊕ Fin 1 → Rat) (e : Fin 1 → Rat) :
    pathValue (ff Ex1.lay) c (q0Of st e) 0 0 0 = 1/2 * st (.inr 0) + 2/3 * e 0 ∧
    pathValue (ff Ex1.lay) c (q0Of st e) 0 1 0 = 1/2 * st (.inr 0) + 2/3 * e 0 := by
  obtain ⟨c0, c1⟩ := Ex1.cells le_rfl hm
  have lam_mul : ∀ x : Ex1.Q → Rat, Ex1.lam *ᵥ x = fun i => match i with
      | .inl _ => 1/2 * x (.inl 0) + 2/3 * x (.inr 0)
      | .inr _ => 0 := by
    intro x
    funext i
    rcases i with i | i <;> simp [mulVec, dotProduct, Fintype.sum_sum_type, Ex1.lam]
  have value_eq : ∀ q0 l k s, pathValue (ff Ex1.lay) c q0 l k s = qPath c l k q0 (s + 1) (.inl 0) := by
    intro q0 l k s
    simp only [pathValue, Ex1.fp1_eq, Ex1.fq0_eq, Ex1.fq1_eq, zero_dotProduct]
    simp [dotProduct, Fintype.sum_sum_type]
  have l00 : ∀ s, locCell c 0 0 s = ⟨Ex1.omg, 0, Ex1.lam, 0⟩ := by
    intro s
    have e1 : lLoc 0 s = 0 := by unfold lLoc; omega
    have e2 : kLoc 0 0 s = 0 := by unfold kLoc; omega
    simp only [locCell, e1, e2, c0]
  have l010 : locCell c 0 1 0 = Ex1.cell01 (-1) := c1
  constructor
  · rw [value_eq, qPath, l00, add_zero, lam_mul]
    rfl
  · rw [value_eq, qPath, l010]
    simp only [Ex1.cell01, add_zero, qPath, lam_mul]
    rfl

/-- Every pair of a state and a shock which moves `y` to `-2` or more is regular: between `-2` and `-1` the constraint binds for one period,
above `-1` it does not bind. -/
theorem Ex1.regular {sched : Nat → List Nat} {mod : Model (Fin 1) (Fin 1) (Fin 1) (Fin 1) Rat} (h : Succeeded Ex1.lay Ex1.orc 0 1 sched mod)
    (st : Fin 1 ⊕ Fin 1 → Rat) (e : Fin 1 → Rat) (hy : -2 ≤ 1/2 * st (.inr 0) + 2/3 * e 0) : Spec.Regular mod 0 1 st e ∧
      (-1 < 1/2 * st (.inr 0) + 2/3 * e 0 → ∃ r, tFunc mod st e .none false = .ok r ∧ r.k = 0) := by
  obtain ⟨c, hm⟩ := genSys_ok h.perm h.gen
  obtain ⟨c0, c1⟩ := Ex1.cells le_rfl hm
  have hz : Nonempty (Fin 1) := ⟨0⟩
  have lam_mul : ∀ x : Ex1.Q → Rat, Ex1.lam *ᵥ x = fun i => match i with
      | .inl _ => 1/2 * x (.inl 0) + 2/3 * x (.inr 0)
      | .inr _ => 0 := by
    intro x
    funext i
    rcases i with i | i <;> simp [mulVec, dotProduct, Fintype.sum_sum_type, Ex1.lam]
  have omg_mul : ∀ x : Ex1.Q → Rat, Ex1.omg *ᵥ x = fun _ => 1/2 * x (.inl 0) + 2/3 * x (.inr 0) := by
    intro x
    funext i
    simp [mulVec, dotProduct, Fintype.sum_sum_type, Ex1.omg]
  obtain ⟨v00, v01⟩ := Ex1.values01 h hm st e
  have p00 : tFunc mod st e (.pair (0 : Nat) (0 : Nat)) false = .ok ⟨Sum.elim (fun _ => 1/2 * st (.inr 0) + 2/3 * e 0)
      (fun _ => 1/2 * st (.inr 0) + 2/3 * e 0), 0, 0, 0⟩ := by
    rw [tFunc_pair hm st e le_rfl (Nat.zero_le 1), xPath_zero, c0]
    simp only [add_zero, omg_mul, lam_mul]
    rfl
  have p01 : tFunc mod st e (.pair (0 : Nat) (1 : Nat)) false = .ok ⟨Sum.elim (fun _ => -1) (fun _ => 1/2 * st (.inr 0) + 2/3 * e 0), 0, 1, 0⟩ := by
    rw [tFunc_pair hm st e le_rfl le_rfl, xPath_zero, c1]
    simp only [Ex1.cell01, zero_mulVec, zero_add, add_zero, lam_mul]
    rfl
  have hx : Ex1.inp'.xbar = -1 := rfl
  have hslack : -1 < 1/2 * st (.inr 0) + 2/3 * e 0 → ∃ r, tFunc mod st e .none false = .ok r ∧ r.flag = 0 ∧ r.k = 0 := by
    intro hs
    have hn : NeverBinds (valuesAt Ex1.lay c st e) Ex1.inp'.xbar 1 := by
      intro j hj
      have : j = 0 := by omega
      subst this
      show Ex1.inp'.xbar < pathValue (ff Ex1.lay) c (q0Of st e) 0 0 0
      rw [v00, hx]
      exact hs
    rw [find_of_neverBinds h hm hn, tFunc_linear_eq h]
    exact ⟨_, rfl, rfl, rfl⟩
  refine ⟨⟨?_, ?_⟩, fun hs => ?_⟩
  · rcases lt_or_ge (-1) (1/2 * st (.inr 0) + 2/3 * e 0) with hs | hs
    · obtain ⟨r, r1, r2, -⟩ := hslack hs
      exact ⟨r, r1, r2⟩
    · obtain ⟨r, r1, -, -, r2, -, -⟩ := Ex1.binding_region 0 1 le_rfl (by omega) h st e _ rfl hy hs
      exact ⟨r, r1, r2⟩
  · intro l k l' k' hl hk hl' hk' hp hp' r r' hr hr'
    have el : l = 0 := by omega
    have el' : l' = 0 := by omega
    subst el el'
    rw [passes_iff hm st e le_rfl hk] at hp
    rw [passes_iff hm st e le_rfl hk'] at hp'
    -- a spell that passes fixes the constrained variable
    have key : ∀ (k : Nat) r, k ≤ 1 → PassAt Ex1.lay c 0 0 k (q0Of st e) → tFunc mod st e (.pair (0 : Nat) k) false = .ok r →
        r.state = Sum.elim (fun _ => max (-1) (1/2 * st (.inr 0) + 2/3 * e 0)) (fun _ => 1/2 * st (.inr 0) + 2/3 * e 0) := by
      intro k r hk hp hr
      rcases Nat.le_one_iff_eq_zero_or_eq_one.1 hk with rfl | rfl
      · rw [p00] at hr
        rw [← Except.ok.inj hr]
        rcases hp with ⟨-, -, h3⟩ | h3
        · have : Ex1.inp'.xbar ≤ pathValue (ff Ex1.lay) c (q0Of st e) 0 0 0 := h3 0 (by omega)
          rw [v00, hx] at this
          rw [max_eq_right this]
        · exact absurd h3.binds (by omega)
      · rw [p01] at hr
        rw [← Except.ok.inj hr]
        rcases hp with ⟨-, h3, -⟩ | h3
        · exact absurd h3 (by omega)
        · have : pathValue (ff Ex1.lay) c (q0Of st e) 0 1 0 ≤ Ex1.inp'.xbar := h3.first
          rw [v01, hx] at this
          rw [max_eq_left this]
    rw [key k r hk hp hr, key k' r' hk' hp' hr']
  · obtain ⟨r, r1, -, r2⟩ := hslack hs
    exact ⟨r, r1, r2⟩

/-- In this model announced disturbances do not reverse, and from these states and shocks the paths that pass are equilibria. -/
theorem C177_unique_hypotheses_met {sched : Nat → List Nat} {mod : Model (Fin 1) (Fin 1) (Fin 1) (Fin 1) Rat}
    (h : Succeeded Ex1.lay Ex1.orc 0 1 sched mod) (st : Fin 1 ⊕ Fin 1 → Rat) (e : Fin 1 → Rat) (hy : -2 ≤ 1/2 * st (.inr 0) + 2/3 * e 0) :
    Spec.LagsNotExpected Ex1.decl ∧ Ex1.decl.rb Ex1.decl.cvar ≠ 1 ∧ Spec.NoReversalOf Ex1.lay mod ∧
    ∀ l k X, l ≤ 0 → k ≤ 1 → Spec.Passes mod 0 1 st e l k → ExpectedPath mod l k st e X →
      Spec.RuleEquilibrium (Spec.asSolved Ex1.decl) (lagVal Ex1.lay st) e (Spec.declared Ex1.lay X) := by
  have hself : Ex1.decl.rb Ex1.decl.cvar = 0 := by simp [Ex1.declB]
  have has : Spec.asSolved Ex1.decl = Ex1.decl := Spec.asSolved_of Ex1.decl rfl (.inl hself)
  have hrule : ∀ xl eps x s, Spec.ruleAt Ex1.decl xl eps x s = notional Ex1.decl xl eps x s := by
    intro xl eps x s
    unfold Spec.ruleAt
    rw [Spec.ruleValue_eq, hself]
    unfold notional
    ring
  refine ⟨.of_rc rfl, by rw [hself]; exact zero_ne_one, ?_, ?_⟩
  · intro d w n h1 h2 h3 h4
    rw [has] at h2
    exact Ex1.noReversal h d w n h1 (fun s => by rw [← hrule]; exact h2 s) h3 h4
  · intro l k X hl hk hp hX
    obtain rfl : l = 0 := by omega
    rw [has]
    refine (ruleEquilibrium_iff (by rw [hself]; exact zero_lt_one) _ _ _).2 ?_
    obtain ⟨c, hm⟩ := genSys_ok h.perm h.gen
    obtain ⟨v00, v01⟩ := Ex1.values01 h hm st e
    have hx : Ex1.inp'.xbar = -1 := rfl
    rw [passes_iff hm st e le_rfl hk] at hp
    obtain ⟨x, hx1, hx2, hx3⟩ := (C103_characterisation h rfl (by simp [Ex1.declB]) (.inr rfl) le_rfl hk st e X).1 hX
    have hval : Spec.declared Ex1.lay X = x := by
      funext s v
      unfold Spec.declared
      rw [hx1 s, val_stateOf Ex1.lay h.square]
      rfl
    rw [hval]
    rw [Ex1.joins_iff h] at hx3
    have q0 := Ex1.eqs_iff.1 (hx2.eqs 0)
    have j1 := hx3 1 (by omega)
    simp only [lag1, shockAt, Ex1.lag_y, Pi.zero_apply] at j1 q0
    have y0 : x 0 0 = 1/2 * st (.inr 0) + 2/3 * e 0 := by linarith [j1.1, j1.2]
    have ys : ∀ s, x s 0 = (1/2 * st (.inr 0) + 2/3 * e 0) * (1/2) ^ s := by
      intro s
      induction s with
      | zero => rw [y0]; norm_num
      | succ s ih =>
        have := (hx3 (s + 1) (by omega)).1
        simp only [lag1, shockAt, Pi.zero_apply, ih] at this
        rw [this, pow_succ]
        ring
    refine ⟨hx2.eqs, fun s => ?_⟩
    rw [Ex1.not_eq, Ex1.lag_bound]
    show x s 1 = _
    cases s with
    | zero =>
      rcases Nat.le_one_iff_eq_zero_or_eq_one.1 hk with rfl | rfl
      · rw [(hx3 0 (by omega)).2, max_eq_right]
        rcases hp with ⟨-, -, h3⟩ | h3
        · have : Ex1.inp'.xbar ≤ pathValue (ff Ex1.lay) c (q0Of st e) 0 0 0 := h3 0 (by omega)
          rw [v00, hx] at this
          rw [y0]
          exact this
        · exact absurd h3.binds (by omega)
      · have r0 : x 0 1 = -1 := hx2.binding 0 (by decide)
        rw [r0, max_eq_left]
        rcases hp with ⟨-, h3, -⟩ | h3
        · exact absurd h3 (by omega)
        · have : pathValue (ff Ex1.lay) c (q0Of st e) 0 1 0 ≤ Ex1.inp'.xbar := h3.first
          rw [v01, hx] at this
          rw [y0]
          exact this
    | succ s =>
      rw [(hx3 (s + 1) (by omega)).2, max_eq_right]
      rw [ys, pow_succ]
      have h1 : (1/2 : Rat) ^ s ≤ 1 := pow_le_one₀ (by norm_num) (by norm_num)
      have h0 : (0 : Rat) ≤ (1/2 : Rat) ^ s := by positivity
      nlinarith

/-- **C177**: the hypotheses are met on the segment from the shock `3` to the shock `-3`: on the first part the constraint does not bind, on the last
part it does. -/
theorem C177_hypotheses_met : ∃ mod, Succeeded Ex1.lay Ex1.orc 0 1 (serial 1) mod ∧
    Spec.RegularBetween mod 0 1 0 0 (fun _ => 3) (fun _ => -3) ∧
    ∃ r r', tFunc mod 0 (fun _ => 3) .none false = .ok r ∧ tFunc mod 0 (fun _ => -3) .none false = .ok r' ∧ r.k = 0 ∧ r'.k = 1 := by
  obtain ⟨mod, h⟩ := ex1_succeeds 0 1
  refine ⟨mod, h, fun t h0 h1 => (Ex1.regular h _ _ ?_).1, ?_⟩
  · simp only [smul_zero, add_zero, Pi.zero_apply, mul_zero, Pi.add_apply, Pi.smul_apply, smul_eq_mul]
    linarith
  · obtain ⟨r', r1, -, r2, -⟩ := Ex1.binding_region 0 1 le_rfl (by omega) h 0 (fun _ => -3) (-2) (by norm_num) le_rfl (by norm_num)
    obtain ⟨r, g1, g2⟩ := (Ex1.regular h 0 (fun _ => 3) (by norm_num)).2 (by norm_num)
    exact ⟨r, r', g1, r1, g2, r2⟩

end Pydsge
