import Verif.Props.Unique
import Verif.Props.Stability

/-!
# C161: when the equilibrium is the only one
-/

set_option autoImplicit false
set_option linter.unusedSectionVars false
set_option linter.unusedSimpArgs false

namespace Pydsge

open Matrix Pydsge.Engine Pydsge.Spec Pydsge.Tools Pydsge.GenSys

variable {E ν ε o K : Type} [Fintype E] [Fintype ν] [Fintype ε] [Fintype o]
  [DecidableEq E] [DecidableEq ν] [DecidableEq ε] [Field K] [LinearOrder K] [IsStrictOrderedRing K]
variable {H z p : Type} [DecidableEq H] [Fintype H] [Fintype z] [Fintype p] [DecidableEq z] [DecidableEq p]

/-- A path is an equilibrium: all equations hold in all periods, and in all periods the constrained variable is the larger one of its notional
value and the bound (whatever the number of spells). -/
structure Spec.Equilibrium (D : Declared E ν ε K) (xlag : ν → K) (eps : ε → K) (x : Nat → ν → K) : Prop where
  eqs : ∀ s, EqsHold D xlag eps x s
  con : ∀ s, x s D.cvar = max D.xbar (notional D xlag eps x s)

section Yaml
variable {D : Declared E ν ε K} {Z0 : Matrix o ν K} {Z1 : o → K} {tol : K} [DecidablePred (inall tol (yaml D Z0 Z1))]
  {lay : Layout tol (yaml D Z0 Z1) H z p}
  {orc : Oracle (Rows E H ε) (z ⊕ ε) p K} {lMax kMax : Nat} {sched : Nat → List Nat} {mod : Model z ε p o K}

/-- Announced disturbances `w` of the constraint equation, in finitely many periods, move the constrained variable in their own direction in at
least one period: the response `d` of the linear model is not against `w` in every period, unless nothing happens at all. (The matrix of these
responses is a P-matrix.) -/
def Spec.NoReversal (lay : Layout tol (yaml D Z0 Z1) H z p) (mod : Model z ε p o K) : Prop :=
  ∀ (d : Nat → ν → K) (w : Nat → K) (n : Nat), (∀ s, EqsHold D 0 0 d s) → (∀ s, d s D.cvar = notional D 0 0 d s + w s) →
    Spec.JoinsLinear lay mod 0 0 d n → (∀ s, w s * d s D.cvar ≤ 0) → d = 0

theorem prev_sub (a b : ν → K) (x y : Nat → ν → K) (s : Nat) : prev (a - b) (fun s => x s - y s) s = prev a x s - prev b y s := by
  cases s <;> rfl

theorem shockAt_zero (s : Nat) : shockAt (0 : ε → K) s = 0 := by cases s <;> rfl

theorem val_sub (lay : Layout tol (yaml D Z0 Z1) H z p) (st st' : p ⊕ z → K) (w : ν ⊕ H) : lay.val (st - st') w = lay.val st w - lay.val st' w := by
  unfold Layout.val
  have e : ∀ (P : Prop) [Decidable P] (a b : K), (if P then a - b else 0) = (if P then a else 0) - (if P then b else 0) := by
    intro P _ a b
    split_ifs <;> simp
  simp only [Pi.sub_apply, e, Finset.sum_sub_distrib]
  ring

theorem stateOf_sub (lay : Layout tol (yaml D Z0 Z1) H z p) (x y : ν → K) : stateOf lay (x - y) = stateOf lay x - stateOf lay y := by
  have e : ∀ w : ν ⊕ H, Sum.elim (x - y) (fun h => (x - y) (lay.hyb h)) w =
      Sum.elim x (fun h => x (lay.hyb h)) w - Sum.elim y (fun h => y (lay.hyb h)) w := by
    rintro (w | w) <;> rfl
  funext i
  rcases i with i | i
  · exact e _
  · exact e _

theorem joins_mono {st0 : p ⊕ z → K} {eps : ε → K} {x : Nat → ν → K} {n n' : Nat} (h : Spec.JoinsLinear lay mod st0 eps x n) (hn : n ≤ n') :
    Spec.JoinsLinear lay mod st0 eps x n' := fun s hs => h s (hn.trans hs)

theorem joins_sub (h : Succeeded lay orc lMax kMax sched mod) {st0 st0' : p ⊕ z → K} {eps eps' : ε → K} {x y : Nat → ν → K} {n : Nat}
    (hx : Spec.JoinsLinear lay mod st0 eps x n) (hy : Spec.JoinsLinear lay mod st0' eps' y n) :
    Spec.JoinsLinear lay mod (st0 - st0') (eps - eps') (fun s => x s - y s) n := by
  intro s hs
  obtain ⟨r, h1, h2⟩ := hx s hs
  obtain ⟨r', h1', h2'⟩ := hy s hs
  rw [← tFunc_linear, tFunc_linear_eq h] at h1 h1'
  refine ⟨_, by rw [← tFunc_linear, tFunc_linear_eq h], fun v => ?_⟩
  cases h1
  cases h1'
  show x s v - y s v = _
  rw [h2, h2', ← val_sub]
  congr 1
  have hp : prev (st0 - st0') (fun s => stateOf lay (x s - y s)) s =
      prev st0 (fun s => stateOf lay (x s)) s - prev st0' (fun s => stateOf lay (y s)) s := by
    cases s with
    | zero => rfl
    | succ s => exact stateOf_sub lay _ _
  have he : shockAt (eps - eps') s = shockAt eps s - shockAt eps' s := by
    cases s with
    | zero => rfl
    | succ s => simp [shockAt]
  have hq : q0Of (prev st0 (fun s => stateOf lay (x s)) s - prev st0' (fun s => stateOf lay (y s)) s) (shockAt eps s - shockAt eps' s) =
      q0Of (prev st0 (fun s => stateOf lay (x s)) s) (shockAt eps s) - q0Of (prev st0' (fun s => stateOf lay (y s)) s) (shockAt eps' s) := by
    funext i
    rcases i with i | i <;> rfl
  rw [hp, he, hq, mulVec_sub, mulVec_sub]
  funext i
  rcases i with i | i <;> simp

/-- **C161 (uniqueness).** If announced disturbances of the constraint equation cannot move the constrained variable against their own direction in
all periods, there is at most one equilibrium that ends on the linear solution, whatever the numbers and lengths of its spells. -/
theorem C161_unique (h : Succeeded lay orc lMax kMax sched mod) (hP : Spec.NoReversal lay mod) {st0 : p ⊕ z → K} {eps : ε → K}
    {x y : Nat → ν → K} (hx : Spec.Equilibrium D (lagVal lay st0) eps x) (hy : Spec.Equilibrium D (lagVal lay st0) eps y) {n n' : Nat}
    (hjx : Spec.JoinsLinear lay mod st0 eps x n) (hjy : Spec.JoinsLinear lay mod st0 eps y n') : x = y := by
  have hd := joins_sub h (joins_mono hjx (le_max_left n n')) (joins_mono hjy (le_max_right n n'))
  rw [sub_self, sub_self] at hd
  have hnot : ∀ s, notional D 0 0 (fun s => x s - y s) s = notional D (lagVal lay st0) eps x s - notional D (lagVal lay st0) eps y s := by
    intro s
    have := prev_sub (lagVal lay st0) (lagVal lay st0) x y s
    rw [sub_self] at this
    simp only [notional, this, shockAt_zero, dotProduct_sub, dotProduct_zero]
    ring
  have h0 := hP (fun s => x s - y s)
    (fun s => (x s D.cvar - notional D (lagVal lay st0) eps x s) - (y s D.cvar - notional D (lagVal lay st0) eps y s)) _ ?_ ?_ hd ?_
  · funext s
    exact sub_eq_zero.1 (congrFun h0 s)
  · intro s
    have e1 := hx.eqs s
    have e2 := hy.eqs s
    have := prev_sub (lagVal lay st0) (lagVal lay st0) x y s
    rw [sub_self] at this
    unfold EqsHold at *
    simp only [this, shockAt_zero, mulVec_sub, mulVec_zero]
    have := congrArg₂ (· - ·) e1 e2
    simp only [sub_zero] at this
    refine Eq.trans ?_ this
    abel
  · intro s
    rw [hnot]
    simp only [Pi.sub_apply]
    ring
  · intro s
    have c1 := hx.con s
    have c2 := hy.con s
    simp only [Pi.sub_apply]
    generalize notional D (lagVal lay st0) eps x s = a at *
    generalize notional D (lagVal lay st0) eps y s = b at *
    rw [c1, c2]
    rcases le_total D.xbar a with ha | ha <;> rcases le_total D.xbar b with hb | hb
    · rw [max_eq_right ha, max_eq_right hb]; simp
    · rw [max_eq_right ha, max_eq_left hb]
      nlinarith
    · rw [max_eq_left ha, max_eq_right hb]
      nlinarith
    · rw [max_eq_left ha, max_eq_left hb]; simp

/-- **C161 (partial).** Then the path that `t_func` reports, if it is an equilibrium in all periods, is the only one; in particular the new state
is the first state of every equilibrium that ends on the linear solution. Missing: that announced disturbances do not reverse. -/
theorem C161_reported_partial (h : Succeeded lay orc lMax kMax sched mod) (hlag : D.rc = 0) (hself : D.rb D.cvar ≠ 1)
    (hsh : D.rb D.cvar = 0 ∨ D.rd = 0) (hP : Spec.NoReversal lay mod) {st0 : p ⊕ z → K} {eps : ε → K} {l k : Nat} (hl : l ≤ lMax) (hk : k ≤ kMax)
    {X : Nat → p ⊕ z → K} (hX : ExpectedPath mod l k st0 eps X)
    (hXe : Spec.Equilibrium D (lagVal lay st0) eps (fun s v => lay.val (X s) (.inl v))) {x : Nat → ν → K}
    (hx : Spec.Equilibrium D (lagVal lay st0) eps x) {n : Nat} (hj : Spec.JoinsLinear lay mod st0 eps x n) :
    ∀ s, X s = stateOf lay (x s) := by
  obtain ⟨y, hy1, hy2, hy3⟩ := (C103_characterisation h hlag hself hsh hl hk st0 eps X).1 hX
  have hy : (fun s v => lay.val (X s) (.inl v)) = y := by
    funext s v
    rw [hy1 s, val_stateOf lay h.square]
    rfl
  rw [hy] at hXe
  obtain rfl := C161_unique h hP hx hXe hj hy3
  exact hy1

end Yaml

end Pydsge
