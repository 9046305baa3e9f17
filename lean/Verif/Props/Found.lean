import Verif.Props.OneEq
import Verif.Props.OneEqEx
import Verif.Props.TimeCons
import Verif.Props.Edge
import Verif.Examples.Ex1Low

/-!
# C163: an error flag means that there is no equilibrium with one spell inside the tables
-/

set_option autoImplicit false
set_option linter.unusedSectionVars false
set_option linter.unusedSimpArgs false

namespace Pydsge

open Matrix Pydsge.Engine Pydsge.Spec Pydsge.Tools Pydsge.GenSys

variable {E ν ε o K : Type} [Fintype E] [Fintype ν] [Fintype ε] [Fintype o]
  [DecidableEq E] [DecidableEq ν] [DecidableEq ε] [Field K] [LinearOrder K] [IsStrictOrderedRing K]
variable {H z p : Type} [DecidableEq H] [Fintype H] [Fintype z] [Fintype p] [DecidableEq z] [DecidableEq p]

/-- The path is below the bound (before the constraint is imposed) only in the periods `l, …, l+k-1`, and in none of these above it. -/
structure Spec.OneSpell (D : Declared E ν ε K) (xlag : ν → K) (eps : ε → K) (x : Nat → ν → K) (l k : Nat) : Prop where
  only : ∀ s, notional D xlag eps x s < D.xbar → l ≤ s ∧ s < l + k
  all : ∀ s, l ≤ s → s < l + k → notional D xlag eps x s ≤ D.xbar

section Yaml
variable {D : Declared E ν ε K} {Z0 : Matrix o ν K} {Z1 : o → K} {tol : K} [DecidablePred (inall tol (yaml D Z0 Z1))]
  {lay : Layout tol (yaml D Z0 Z1) H z p}
  {orc : Oracle (Rows E H ε) (z ⊕ ε) p K} {lMax kMax : Nat} {sched : Nat → List Nat} {mod : Model z ε p o K}

/-- If a path passes the tests, the search ends with flag 0. -/
theorem flag_zero_of_fine (h : Succeeded lay orc lMax kMax sched mod) (hk1 : 1 ≤ kMax) (hL : lMax + 1 ≤ 999) (hlag : D.rc = 0)
    (hself : D.rb D.cvar = 0) {l k : Nat} (hl : l ≤ lMax) (hk : k ≤ kMax) {st : p ⊕ z → K} {eps : ε → K} {X : Nat → p ⊕ z → K}
    (hX : ExpectedPath mod l k st eps X) (hs : Spec.LooksFine D (lagVal lay st) eps (Spec.declared lay X) (lMax + 1) l k)
    (h00 : k = 0 → l = 0) : ∃ r, tFunc mod st eps .none false = .ok r ∧ r.flag = 0 := by
  obtain ⟨c, hm⟩ := genSys_ok h.perm h.gen
  obtain ⟨M', hS⟩ := hm.eng
  have hz := h.states
  have hf := noLagFwd_of_rc (Z0 := Z0) (Z1 := Z1) hlag
  have hXs : X = xPath c l k (q0Of st eps) :=
    funext ((expectedPath_iff hm h.orc h.noTiny h.square h.states hf hl hk st eps X).1 hX)
  subst hXs
  have hv : ∀ {l' k'}, l' ≤ lMax → k' ≤ kMax → ∀ s, pathValue (ff lay) c (q0Of st eps) l' k' s =
      notional D (lagVal lay st) eps (Spec.declared lay (xPath c l' k' (q0Of st eps))) s :=
    fun hl' hk' s => pathValue_notional h hm hlag hself hl' hk' st eps s
  have hxb : mod.xbar = D.xbar := hm.xbar
  have hspec := findLk_spec (xbar := mod.xbar) (checkCnst_reads hS (q0Of st eps)) (by omega) hL (show 1 < kMax + 1 by omega)
  rcases hspec with ⟨_, h2⟩ | ⟨_, l', k', ⟨g1, g2, -, -⟩, h2⟩ | ⟨hn, h1, _⟩
  · exact ⟨_, tFunc_find hm st eps h2 (Nat.zero_le _) (Nat.zero_le _), rfl⟩
  · exact ⟨_, tFunc_find hm st eps h2 (by omega) (by omega), rfl⟩
  · exfalso
    rcases hs with ⟨rfl, hs⟩ | ⟨c1, c2, c3, c4, c5, c6⟩
    · obtain rfl := h00 rfl
      refine hn fun j hj => ?_
      simp only [slotPeriod]
      rw [hv (show j ≤ lMax by omega) (Nat.zero_le _), hxb]
      have : Spec.declared lay (xPath c j 0 (q0Of st eps)) = Spec.declared lay (xPath c 0 0 (q0Of st eps)) := by
        funext s v
        unfold Spec.declared
        rw [(xPath_l0 h hm (show j ≤ lMax by omega) (q0Of st eps) s).2]
      rw [this]
      exact hs j hj
    · refine h1 l k (by omega) (by omega) ⟨c1, fun g => ?_, fun g => ?_, ?_, ?_, fun g => ?_⟩ <;> simp only [slotPeriod, hv hl hk, hxb]
      · exact c2 g
      · exact c3 g
      · exact c6
      · exact c4
      · exact c5 g

/-- An equilibrium with one spell solves the model under that spell. -/
theorem Spec.OneSpell.solves {xlag : ν → K} {eps : ε → K} {x : Nat → ν → K} {l k : Nat} (hx : Spec.Equilibrium D xlag eps x)
    (ho : Spec.OneSpell D xlag eps x l k) : SolvesUnderSpell D xlag eps x l k := by
  refine ⟨hx.eqs, fun s hs => ?_, fun s hs => ?_⟩
  · rw [hx.con s, max_eq_right]
    by_contra hn
    exact hs (ho.only s (not_le.1 hn))
  · rw [hx.con s, max_eq_left (ho.all s hs.1 hs.2)]

/-- If the constraint never binds in an equilibrium with at most one spell, the spell can be taken to be empty, or of one period in which the path
just touches the bound. -/
theorem touch {xlag : ν → K} {eps : ε → K} {x : Nat → ν → K} {l : Nat} (ho : Spec.OneSpell D xlag eps x l 0) (L : Nat) :
    (∀ j < L, D.xbar < notional D xlag eps x j) ∨ ∃ j < L, Spec.OneSpell D xlag eps x j 1 := by
  by_cases hh : ∀ j < L, D.xbar < notional D xlag eps x j
  · exact .inl hh
  · push Not at hh
    obtain ⟨j, hj, hle⟩ := hh
    refine .inr ⟨j, hj, fun s hs => ?_, fun s h1 h2 => ?_⟩
    · have := ho.only s hs
      omega
    · obtain rfl : s = j := by omega
      exact hle

/-- **C163.** If there is an equilibrium with one spell inside the tables that ends on the linear solution, `t_func` does not report an error. -/
theorem C163_found (h : Succeeded lay orc lMax kMax sched mod) (hk1 : 1 ≤ kMax) (hl1 : 1 ≤ lMax) (hL : lMax + 1 ≤ 999) (hlag : D.rc = 0)
    (hself : D.rb D.cvar = 0) {l k : Nat} (hl : l ≤ lMax) (hk : k ≤ kMax) {st : p ⊕ z → K} {eps : ε → K} {x : Nat → ν → K}
    (hx : Spec.Equilibrium D (lagVal lay st) eps x) (ho : Spec.OneSpell D (lagVal lay st) eps x l k) {n : Nat}
    (hj : Spec.JoinsLinear lay mod st eps x n) : ∃ r, tFunc mod st eps .none false = .ok r ∧ r.flag = 0 := by
  have hs1 : D.rb D.cvar ≠ 1 := by rw [hself]; exact zero_ne_one
  -- every spell of this path
  have key : ∀ l' k', l' ≤ lMax → k' ≤ kMax → (k' = 0 → l' = 0) → Spec.OneSpell D (lagVal lay st) eps x l' k' →
      (k' = 0 → ∀ j < lMax + 1, D.xbar < notional D (lagVal lay st) eps x j) → ∃ r, tFunc mod st eps .none false = .ok r ∧ r.flag = 0 := by
    intro l' k' hl' hk' h00 ho' hslack
    have hsol := ho'.solves hx
    have hj' : Spec.JoinsLinear lay mod st eps x (l' + k') := by
      rcases Nat.le_total n (l' + k') with hn | hn
      · exact joins_mono hj hn
      · obtain ⟨d, rfl⟩ := Nat.exists_eq_add_of_le hn
        exact joins_back_many h (.of_rc hlag) hs1 hl1 (by rwa [Spec.asSolved_of D hlag (.inl hself)]) le_rfl d hj
    have hX := C103_unique_path h hlag hs1 (.inl hself) hl' hk' st eps x hsol hj'
    have hd : Spec.declared lay (fun s => stateOf lay (x s)) = x := by
      funext s v
      unfold Spec.declared
      rw [val_stateOf lay h.square]
      rfl
    refine flag_zero_of_fine h hk1 hL hlag hself hl' hk' hX ?_ h00
    rw [hd]
    by_cases hk0 : k' = 0
    · exact .inl ⟨hk0, hslack hk0⟩
    · have hb : ∀ s, ¬ (l' ≤ s ∧ s < l' + k') → D.xbar ≤ notional D (lagVal lay st) eps x s := fun s hs => not_lt.1 fun g => hs (ho'.only s g)
      exact .inr ⟨by omega, fun _ => hb 0 (by omega), fun _ => hb _ (by omega), ho'.all _ le_rfl (by omega),
        fun _ => ho'.all _ (by omega) (by omega), hb _ (by omega)⟩
  by_cases hk0 : k = 0
  · subst hk0
    rcases touch ho (lMax + 1) with hs | ⟨j, hj, ho'⟩
    · exact key 0 0 (Nat.zero_le _) (Nat.zero_le _) (fun _ => rfl)
        ⟨fun s hs => by have := ho.only s hs; omega, fun s _ hs => by omega⟩ fun _ => hs
    · exact key j 1 (by omega) hk1 (by omega) ho' (by omega)
  · exact key l k hl hk (by omega) ho (by omega)

/-- **C163**, the other way round: if `t_func` reports an error, there is no equilibrium with one spell inside the tables. -/
theorem C163_flagged (h : Succeeded lay orc lMax kMax sched mod) (hk1 : 1 ≤ kMax) (hl1 : 1 ≤ lMax) (hL : lMax + 1 ≤ 999) (hlag : D.rc = 0)
    (hself : D.rb D.cvar = 0) {st : p ⊕ z → K} {eps : ε → K} {r : Step z p K} (hr : tFunc mod st eps .none false = .ok r)
    (hflag : r.flag ≠ 0) {x : Nat → ν → K} (hx : Spec.Equilibrium D (lagVal lay st) eps x) {n : Nat} (hj : Spec.JoinsLinear lay mod st eps x n)
    {l k : Nat} (ho : Spec.OneSpell D (lagVal lay st) eps x l k) : lMax < l ∨ kMax < k := by
  by_contra hn
  push Not at hn
  obtain ⟨r', h1, h2⟩ := C163_found h hk1 hl1 hL hlag hself hn.1 hn.2 hx ho hj
  rw [hr] at h1
  cases h1
  exact hflag h2

end Yaml

/-! ## Cases that meet the hypotheses -/

namespace Ex1

/-- the equilibrium after the shock `-4`: the constraint binds for two periods -/
def deep (s : Nat) : Fin 2 → Rat := fun v => if v = 1 then max (-1) (-3 * (1/2) ^ s) else -3 * (1/2) ^ s

theorem deep_y (s : Nat) : deep s 0 = -3 * (1/2) ^ s := by simp [deep]
theorem deep_r (s : Nat) : deep s 1 = max (-1) (-3 * (1/2) ^ s) := by simp [deep]

theorem deep_r2 (s : Nat) : deep (s + 2) 1 = -3 * (1/2) ^ (s + 2) := by
  rw [deep_r, max_eq_right]
  have : (1/2 : Rat) ^ s ≤ 1 := pow_le_one₀ (by norm_num) (by norm_num)
  rw [pow_succ, pow_succ]
  linarith

theorem deep_equilibrium : Spec.Equilibrium decl (lagVal lay (0 : Fin 1 ⊕ Fin 1 → Rat)) (fun _ => -4) deep := by
  constructor
  · intro s
    rw [eqs_iff]
    rcases s with _ | s
    · simp only [lag1, shockAt, lag_y, Pi.zero_apply, deep_y, deep_r]
      norm_num
    · rw [show s + 1 + 1 = s + 2 from rfl, deep_r2]
      simp only [lag1, shockAt, deep_y, Pi.zero_apply, pow_succ]
      ring
  · intro s
    rw [not_eq, deep_y]
    exact deep_r s

theorem deep_oneSpell : Spec.OneSpell decl (lagVal lay (0 : Fin 1 ⊕ Fin 1 → Rat)) (fun _ => -4) deep 0 2 := by
  constructor
  · intro s hs
    rw [not_eq, deep_y] at hs
    change _ < (-1 : Rat) at hs
    refine ⟨Nat.zero_le _, ?_⟩
    by_contra hn
    obtain ⟨t, rfl⟩ : ∃ t, s = t + 2 := ⟨s - 2, by omega⟩
    have : (1/2 : Rat) ^ t ≤ 1 := pow_le_one₀ (by norm_num) (by norm_num)
    rw [pow_succ, pow_succ] at hs
    linarith
  · intro s _ hs
    rw [not_eq, deep_y]
    change _ ≤ (-1 : Rat)
    have : s = 0 ∨ s = 1 := by omega
    rcases this with rfl | rfl <;> norm_num

theorem deep_joins {lMax kMax : Nat} {sched : Nat → List Nat} {mod : Model (Fin 1) (Fin 1) (Fin 1) (Fin 1) Rat}
    (h : Succeeded lay orc lMax kMax sched mod) : Spec.JoinsLinear lay mod 0 (fun _ => -4) deep 2 := by
  rw [joins_iff h]
  intro s hs
  obtain ⟨s, rfl⟩ : ∃ t, s = t + 2 := ⟨s - 2, by omega⟩
  rw [deep_r2, deep_y]
  refine ⟨?_, rfl⟩
  simp only [lag1, shockAt, Pi.zero_apply, deep_y, pow_succ]
  ring

end Ex1

/-- **C163**: the hypotheses of the first theorem are met. -/
example : ∃ mod, Succeeded Ex1.lay Ex1.orc 2 30 (serial 30) mod ∧
    Spec.Equilibrium Ex1.decl (lagVal Ex1.lay (0 : Fin 1 ⊕ Fin 1 → Rat)) (fun _ => -4) Ex1.deep ∧
    Spec.OneSpell Ex1.decl (lagVal Ex1.lay (0 : Fin 1 ⊕ Fin 1 → Rat)) (fun _ => -4) Ex1.deep 0 2 ∧
    Spec.JoinsLinear Ex1.lay mod 0 (fun _ => -4) Ex1.deep 2 ∧ ∃ r, tFunc mod 0 (fun _ => -4) .none false = .ok r ∧ r.flag = 0 := by
  obtain ⟨mod, h⟩ := ex1_succeeds 2 30
  exact ⟨mod, h, Ex1.deep_equilibrium, Ex1.deep_oneSpell, Ex1.deep_joins h,
    C163_found h (by omega) (by omega) (by omega) rfl (by simp [Ex1.declB]) (Nat.zero_le _) (by omega) Ex1.deep_equilibrium Ex1.deep_oneSpell
      (Ex1.deep_joins h)⟩

/-- **C163**: the hypotheses of the second theorem are met. With `k_max = 1` the same shock leads to flag 2, and the equilibrium has a spell of two
periods. -/
theorem C163_hypotheses_met : ∃ mod r, Succeeded Ex1.lay Ex1.orc 3 1 (serial 1) mod ∧ tFunc mod 0 (fun _ => -4) .none false = .ok r ∧ r.flag = 2 ∧
    Spec.Equilibrium Ex1.decl (lagVal Ex1.lay (0 : Fin 1 ⊕ Fin 1 → Rat)) (fun _ => -4) Ex1.deep ∧
    Spec.OneSpell Ex1.decl (lagVal Ex1.lay (0 : Fin 1 ⊕ Fin 1 → Rat)) (fun _ => -4) Ex1.deep 0 2 ∧
    Spec.JoinsLinear Ex1.lay mod 0 (fun _ => -4) Ex1.deep 2 := by
  obtain ⟨mod, h⟩ := ex1_succeeds 3 1
  obtain ⟨r, a1, a2, a3, a4, a5⟩ := Ex1.low_run 3 (by omega) h 0 (fun _ => -4) (by norm_num)
  exact ⟨mod, r, h, a1, a4, Ex1.deep_equilibrium, Ex1.deep_oneSpell, Ex1.deep_joins h⟩

end Pydsge
