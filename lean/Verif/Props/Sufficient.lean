import Verif.Props.Satellite
import Verif.Props.SatelliteEx
import Verif.Props.StabilityEx
import Verif.Examples.Ex1Run
import Verif.Props.Exogenous

/-!
# C184: the past and the shocks act only through the equations
-/

set_option autoImplicit false
set_option linter.unusedSectionVars false
set_option linter.unusedSimpArgs false

namespace Pydsge

open Matrix Pydsge.Engine Pydsge.Spec Pydsge.Tools Pydsge.GenSys

variable {E ν ε o K : Type} [Fintype E] [Fintype ν] [Fintype ε] [Fintype o]
  [DecidableEq E] [DecidableEq ν] [DecidableEq ε] [Field K] [LinearOrder K] [IsStrictOrderedRing K]
variable {H z p : Type} [DecidableEq H] [Fintype H] [Fintype z] [Fintype p] [DecidableEq z] [DecidableEq p]

/-! ## Specification -/

/-- Lags `xlag` with shocks `eps` and lags `ylag` with shocks `eta` contribute the same to every equation and to the constraint. -/
structure Spec.SameInput {E ν ε K : Type} [Fintype ν] [Fintype ε] [Field K] (D : Declared E ν ε K) (xlag : ν → K) (eps : ε → K) (ylag : ν → K)
    (eta : ε → K) : Prop where
  eqs : D.C *ᵥ xlag + D.D *ᵥ eps = D.C *ᵥ ylag + D.D *ᵥ eta
  cnst : D.rc ⬝ᵥ xlag + D.rd ⬝ᵥ eps = D.rc ⬝ᵥ ylag + D.rd ⬝ᵥ eta

theorem Spec.SameInput.symm {D : Declared E ν ε K} {xlag ylag : ν → K} {eps eta : ε → K} (h : Spec.SameInput D xlag eps ylag eta) :
    Spec.SameInput D ylag eta xlag eps := ⟨h.eqs.symm, h.cnst.symm⟩

theorem Spec.SameInput.solves {D : Declared E ν ε K} {xlag ylag : ν → K} {eps eta : ε → K} (h : Spec.SameInput D xlag eps ylag eta)
    {x : Nat → ν → K} {l k : Nat} (hx : SolvesUnderSpell D xlag eps x l k) : SolvesUnderSpell D ylag eta x l k := by
  refine ⟨fun s => ?_, fun s hs => ?_, hx.binding⟩
  · have := hx.eqs s
    cases s with
    | zero =>
      unfold EqsHold at this ⊢
      simp only [prev, shockAt] at this ⊢
      rw [add_assoc, ← h.eqs, ← add_assoc]
      exact this
    | succ s => exact this
  · have := hx.slack s hs
    cases s with
    | zero =>
      unfold notional at this ⊢
      simp only [prev, shockAt] at this ⊢
      rw [add_assoc, ← h.cnst, ← add_assoc]
      exact this
    | succ s => exact this

section
variable {D : Declared E ν ε K} {Z0 : Matrix o ν K} {Z1 : o → K} {tol : K} [DecidablePred (inall tol (yaml D Z0 Z1))]
  {lay : Layout tol (yaml D Z0 Z1) H z p} {orc : Oracle (Rows E H ε) (z ⊕ ε) p K} {lMax kMax : Nat} {sched : Nat → List Nat}
  {mod : Model z ε p o K}

/-- C184: the linear paths agree. -/
theorem sameInput_linear (h : Succeeded lay orc lMax kMax sched mod) (hlag : Spec.LagsNotExpected D) (hself : D.rb D.cvar ≠ 1)
    {P : (Nat → ν → K) → Prop} (hdet : Spec.Determinate P (Spec.asSolved D))
    (hP : ∀ st eps X, ExpectedPath mod 0 0 st eps X → P (fun s v => lay.val (X s) (.inl v)))
    {st st' : p ⊕ z → K} {eps eps' : ε → K} (hs : Spec.SameInput (Spec.asSolved D) (lagVal lay st) eps (lagVal lay st') eps')
    {X X' : Nat → p ⊕ z → K} (hX : ExpectedPath mod 0 0 st eps X) (hX' : ExpectedPath mod 0 0 st' eps' X') (s : Nat) (v : ν) :
    lay.val (X s) (.inl v) = lay.val (X' s) (.inl v) := by
  have s1 := hs.solves (C148_paths_solve h hlag hself (Nat.zero_le _) (Nat.zero_le _) st _ _ hX)
  have s2 := C148_paths_solve h hlag hself (Nat.zero_le _) (Nat.zero_le _) st' _ _ hX'
  exact congrFun (congrFun (hdet _ _ _ _ s1 s2 (hP _ _ _ hX) (hP _ _ _ hX')) s) v

/-- **C184** for expected paths, under every spell. -/
theorem C184_same_path (h : Succeeded lay orc lMax kMax sched mod) (hlag : Spec.LagsNotExpected D) (hself : D.rb D.cvar ≠ 1)
    {P : (Nat → ν → K) → Prop} (hdet : Spec.Determinate P (Spec.asSolved D))
    (hP : ∀ st eps X, ExpectedPath mod 0 0 st eps X → P (fun s v => lay.val (X s) (.inl v)))
    {st st' : p ⊕ z → K} {eps eps' : ε → K} (hs : Spec.SameInput (Spec.asSolved D) (lagVal lay st) eps (lagVal lay st') eps')
    {l k : Nat} (hl : l ≤ lMax) (hk : k ≤ kMax) {X : Nat → p ⊕ z → K} (hX : ExpectedPath mod l k st eps X) :
    ExpectedPath mod l k st' eps' X := by
  obtain ⟨x, hx, h1, h2⟩ := (C148_characterisation h hlag hself hl hk st eps X).1 hX
  refine (C148_characterisation h hlag hself hl hk st' eps' X).2 ⟨x, hx, hs.solves h1, fun s hn => ?_⟩
  cases s with
  | succ s => exact h2 (s + 1) hn
  | zero =>
    obtain ⟨r, a1, a2⟩ := h2 0 hn
    obtain ⟨Y, hY⟩ := expectedPath_exists h (Nat.zero_le lMax) (Nat.zero_le kMax) st eps
    obtain ⟨Y', hY'⟩ := expectedPath_exists h (Nat.zero_le lMax) (Nat.zero_le kMax) st' eps'
    obtain ⟨r1, b1, b2⟩ := hY 0
    obtain ⟨r2, c1, c2⟩ := hY' 0
    refine ⟨r2, c1, fun v => ?_⟩
    have b1 : tFunc mod st eps (.pair 0 0) false = .ok r1 := b1
    have a1 : tFunc mod st eps (.pair 0 0) false = .ok r := a1
    rw [a1] at b1
    rw [a2, Except.ok.inj b1, ← b2, ← c2]
    exact sameInput_linear h hlag hself hdet hP hs hY hY' 0 v

theorem sameInput_xPath (h : Succeeded lay orc lMax kMax sched mod) {c : Nat → Nat → Cell (z ⊕ ε) p K} (hm : SolvedModel lay orc lMax kMax mod c)
    (hlag : Spec.LagsNotExpected D) (hself : D.rb D.cvar ≠ 1)
    {P : (Nat → ν → K) → Prop} (hdet : Spec.Determinate P (Spec.asSolved D))
    (hP : ∀ st eps X, ExpectedPath mod 0 0 st eps X → P (fun s v => lay.val (X s) (.inl v)))
    {st st' : p ⊕ z → K} {eps eps' : ε → K} (hs : Spec.SameInput (Spec.asSolved D) (lagVal lay st) eps (lagVal lay st') eps')
    {l k : Nat} (hl : l ≤ lMax) (hk : k ≤ kMax) (s : Nat) :
    xPath c l k (q0Of st eps) s = xPath c l k (q0Of st' eps') s := by
  have hf := noLagFwd_of_not_expected (Z0 := Z0) (Z1 := Z1) hlag
  have hX := (expectedPath_iff hm h.orc h.noTiny h.square h.states hf hl hk st eps _).2 fun _ => rfl
  have hX' := C184_same_path h hlag hself hdet hP hs hl hk hX
  exact (expectedPath_iff hm h.orc h.noTiny h.square h.states hf hl hk st' eps' _).1 hX' s

/-- **C184**: if two pasts with shocks contribute the same to all equations and to the constraint, then a transition returns the same: state, durations,
flag, or error; whether the spell is found or imposed, and linear or not. -/
theorem C184_same_transition (h : Succeeded lay orc lMax kMax sched mod) (hk1 : 1 ≤ kMax) (hlag : Spec.LagsNotExpected D) (hself : D.rb D.cvar ≠ 1)
    {P : (Nat → ν → K) → Prop} (hdet : Spec.Determinate P (Spec.asSolved D))
    (hP : ∀ st eps X, ExpectedPath mod 0 0 st eps X → P (fun s v => lay.val (X s) (.inl v)))
    {st st' : p ⊕ z → K} {eps eps' : ε → K} (hs : Spec.SameInput (Spec.asSolved D) (lagVal lay st) eps (lagVal lay st') eps')
    (sk : SetK) (lin : Bool) : tFunc mod st eps sk lin = tFunc mod st' eps' sk lin := by
  obtain ⟨c, hm⟩ := genSys_ok h.perm h.gen
  obtain ⟨M, hS⟩ := hm.eng
  have := h.states
  rw [tFunc_as_pair, tFunc_as_pair mod st']
  generalize (setLK lin sk).1 = l
  generalize (setLK lin sk).2 = k
  by_cases hk : k = -1
  · rw [hk, tFunc_minus_one, tFunc_minus_one]
    have hrd : checkCnst mod.tables (q0Of st eps) = checkCnst mod.tables (q0Of st' eps') := by
      funext i l k
      unfold checkCnst
      rw [hS.shapeL, hS.shapeK]
      by_cases hlk : l < lMax + 1 ∧ k < kMax + 1
      · rw [if_pos hlk, if_pos hlk, hS.rows]
        simp only [hlk, and_self, if_true, bRows]
        cases slotAt l k i with
        | none => rfl
        | some s =>
          simp only [rowAt_value]
          refine congrArg Except.ok ?_
          have e1 := pathValue_at h hm hlag hself (show l ≤ lMax by omega) (show k ≤ kMax by omega) st eps s
          have e2 := pathValue_at h hm hlag hself (show l ≤ lMax by omega) (show k ≤ kMax by omega) st' eps' s
          refine e1.trans (Eq.trans ?_ e2.symm)
          have e := sameInput_xPath h hm hlag hself hdet hP hs (show l ≤ lMax by omega) (show k ≤ kMax by omega)
          cases s with
          | zero =>
            unfold Spec.ruleValue
            simp only [prev, shockAt, e, add_assoc]
            rw [hs.cnst]
          | succ s => simp only [prev, shockAt, e]
      · rw [if_neg hlk, if_neg hlk]
    obtain ⟨l, k, flag, hf, hl, hk, -⟩ := findLk_cases (xbar := mod.xbar) (checkCnst_reads hS (q0Of st eps)) (by omega) (by omega)
    have hf' := hf
    rw [hrd] at hf'
    rw [tFunc_find hm st eps hf (by omega) (by omega), tFunc_find hm st' eps' hf' (by omega) (by omega),
      sameInput_xPath h hm hlag hself hdet hP hs (by omega) (by omega)]
  · by_cases hb : -((lMax : Int) + 1) ≤ l ∧ l ≤ lMax ∧ -((kMax : Int) + 1) ≤ k ∧ k ≤ kMax
    · rw [tFunc_wrap h st eps hk hb.1 hb.2.1 hb.2.2.1 hb.2.2.2, tFunc_wrap h st' eps' hk hb.1 hb.2.1 hb.2.2.1 hb.2.2.2]
      have a1 : 0 ≤ l % ((lMax : Int) + 1) := Int.emod_nonneg _ (by omega)
      have a2 : l % ((lMax : Int) + 1) < lMax + 1 := Int.emod_lt_of_pos _ (by omega)
      have b1 : 0 ≤ k % ((kMax : Int) + 1) := Int.emod_nonneg _ (by omega)
      have b2 : k % ((kMax : Int) + 1) < kMax + 1 := Int.emod_lt_of_pos _ (by omega)
      obtain ⟨l', hl'⟩ := Int.eq_ofNat_of_zero_le a1
      obtain ⟨k', hk'⟩ := Int.eq_ofNat_of_zero_le b1
      rw [hl', hk', tFunc_pair hm st eps (by omega) (by omega), tFunc_pair hm st' eps' (by omega) (by omega),
        sameInput_xPath h hm hlag hself hdet hP hs (by omega) (by omega)]
    · rw [tFunc_off h st eps hk hb, tFunc_off h st' eps' hk hb]

/-- **C184** with the usual notion of determinacy: the linear solution is stable, and the model has one stable path. -/
theorem C184_stable (h : Succeeded lay orc lMax kMax sched mod) (hk1 : 1 ≤ kMax) (hlag : Spec.LagsNotExpected D) (hself : D.rb D.cvar ≠ 1)
    (hstab : Spec.LinearStable mod) (hdet : Spec.Determinate Spec.DiesOut (Spec.asSolved D))
    {st st' : p ⊕ z → K} {eps eps' : ε → K} (hs : Spec.SameInput (Spec.asSolved D) (lagVal lay st) eps (lagVal lay st') eps')
    (sk : SetK) (lin : Bool) : tFunc mod st eps sk lin = tFunc mod st' eps' sk lin :=
  C184_same_transition h hk1 hlag hself hdet (fun _ _ _ hX => diesOut_val (C132_expected_paths_return hstab hX)) hs sk lin

/-- **C184** for shocks: shocks that move the equations and the constraint alike are interchangeable in simulations. -/
theorem C184_simulation (h : Succeeded lay orc lMax kMax sched mod) (hk1 : 1 ≤ kMax) (hlag : Spec.LagsNotExpected D) (hself : D.rb D.cvar ≠ 1)
    (hstab : Spec.LinearStable mod) (hdet : Spec.Determinate Spec.DiesOut (Spec.asSolved D)) (lin : Bool) {es es' : List (ε → K)}
    (hes : List.Forall₂ (fun e e' => D.D *ᵥ e = D.D *ᵥ e' ∧ D.rd ⬝ᵥ e = D.rd ⬝ᵥ e') es es') :
    ∀ st : p ⊕ z → K, simLoop mod lin st es = simLoop mod lin st es' := by
  induction hes with
  | nil => intro st; rfl
  | @cons e e' _ _ h1 _ ih =>
    intro st
    have hs : Spec.SameInput (Spec.asSolved D) (lagVal lay st) e (lagVal lay st) e' :=
      ⟨by show D.C *ᵥ _ + D.D *ᵥ _ = D.C *ᵥ _ + D.D *ᵥ _; rw [h1.1], by
        have he : ∀ e : ε → K, (Spec.asSolved D).rd ⬝ᵥ e = (1 - D.rb D.cvar) * (D.rd ⬝ᵥ e) := by
          intro e
          simp only [Spec.asSolved, dotProduct, Finset.mul_sum, mul_assoc]
        rw [he, he, h1.2]⟩
    simp only [simLoop, C184_stable h hk1 hlag hself hstab hdet hs .none lin, ih]

/-- **C184**, while the constraint binds: under a spell that starts at once, the path does not depend on what the past and the shocks contribute to the
constraint. Determinacy is not needed. -/
theorem C184_bound_path (h : Succeeded lay orc lMax kMax sched mod) (hlag : Spec.LagsNotExpected D) (hself : D.rb D.cvar ≠ 1)
    {st st' : p ⊕ z → K} {eps eps' : ε → K} (hs : D.C *ᵥ lagVal lay st + D.D *ᵥ eps = D.C *ᵥ lagVal lay st' + D.D *ᵥ eps')
    {k : Nat} (hk : 1 ≤ k) (hk' : k ≤ kMax) {X : Nat → p ⊕ z → K} (hX : ExpectedPath mod 0 k st eps X) :
    ExpectedPath mod 0 k st' eps' X := by
  obtain ⟨x, hx, h1, h2⟩ := (C148_characterisation h hlag hself (Nat.zero_le _) hk' st eps X).1 hX
  refine (C148_characterisation h hlag hself (Nat.zero_le _) hk' st' eps' X).2 ⟨x, hx, ⟨fun s => ?_, fun s hb => ?_, h1.binding⟩, fun s hn => ?_⟩
  · have := h1.eqs s
    cases s with
    | zero =>
      unfold EqsHold at this ⊢
      simp only [prev, shockAt] at this ⊢
      have e : (Spec.asSolved D).C *ᵥ lagVal lay st + (Spec.asSolved D).D *ᵥ eps = (Spec.asSolved D).C *ᵥ lagVal lay st' + (Spec.asSolved D).D *ᵥ eps' := hs
      rw [add_assoc, ← e, ← add_assoc]
      exact this
    | succ s => exact this
  · cases s with
    | zero =>
      exact absurd ⟨le_rfl, by omega⟩ hb
    | succ s => exact h1.slack (s + 1) hb
  · cases s with
    | zero => omega
    | succ s => exact h2 (s + 1) hn

/-- ... and so a transition into a spell that starts at once depends on past and shocks only through the equations and the duration. -/
theorem C184_bound_transition (h : Succeeded lay orc lMax kMax sched mod) (hk1 : 1 ≤ kMax) (hlag : Spec.LagsNotExpected D) (hself : D.rb D.cvar ≠ 1)
    {st st' : p ⊕ z → K} {eps eps' : ε → K} (hs : D.C *ᵥ lagVal lay st + D.D *ᵥ eps = D.C *ᵥ lagVal lay st' + D.D *ᵥ eps')
    {r r' : Step z p K} (hr : tFunc mod st eps .none false = .ok r) (hr' : tFunc mod st' eps' .none false = .ok r') (hl : r.l = 0) (hl' : r'.l = 0)
    (hk : 1 ≤ r.k) (hkk : r.k = r'.k) : r.state = r'.state := by
  obtain ⟨r1, a1, a2, a3⟩ := tFunc_endo h hk1 st eps false
  rw [hr] at a1
  obtain rfl := Except.ok.inj a1
  obtain ⟨q, c1, c2, c3, c4⟩ := C14_impose_found_equilibrium h hk1 st eps r hr
  obtain ⟨q', d1, d2, d3, d4⟩ := C14_impose_found_equilibrium h hk1 st' eps' r' hr'
  rw [hl] at c1
  rw [hl', ← hkk] at d1
  obtain ⟨X, hX, h0⟩ := path_of_nat_pair h (Nat.zero_le _) a3 c1
  obtain ⟨r2, e1, e2⟩ := (C184_bound_path h hlag hself hs hk a3 hX) 0
  have e0 : elapsed 0 r.k 0 = (0, r.k) := by unfold elapsed; simp
  rw [e0] at e1
  have e1 : tFunc mod st' eps' (.pair (0 : Nat) r.k) false = .ok r2 := e1
  rw [d1] at e1
  rw [← c2, ← h0, e2, ← Except.ok.inj e1, d2]

theorem recovered_pair (h : Succeeded lay orc lMax kMax sched mod) (hlag : Spec.LagsNotExpected D) (hself : D.rb D.cvar ≠ 1)
    {st st' : p ⊕ z → K} {eps eps' : ε → K} {l k : Nat} (hl : l ≤ lMax) (hk : k ≤ kMax) {r r' : Step z p K}
    (hr : tFunc mod st eps (.pair l k) false = .ok r) (hr' : tFunc mod st' eps' (.pair l k) false = .ok r') (hs : r.state = r'.state) :
    D.C *ᵥ lagVal lay st + D.D *ᵥ eps = D.C *ᵥ lagVal lay st' + D.D *ᵥ eps' ∧
      (¬ BindsAt l k 0 → (Spec.asSolved D).rc ⬝ᵥ lagVal lay st + (Spec.asSolved D).rd ⬝ᵥ eps =
        (Spec.asSolved D).rc ⬝ᵥ lagVal lay st' + (Spec.asSolved D).rd ⬝ᵥ eps') := by
  obtain ⟨X, hX, h0⟩ := path_of_nat_pair h hl hk hr
  obtain ⟨X', hX', h0'⟩ := path_of_nat_pair h hl hk hr'
  have e0 : X 0 = X' 0 := by rw [h0, h0', hs]
  have e1 : X 1 = X' 1 := by
    obtain ⟨r1, a1, a2⟩ := hX 1
    obtain ⟨r2, b1, b2⟩ := hX' 1
    have b1 : tFunc mod (X' 0) 0 (.pair (elapsed l k 1).1 (elapsed l k 1).2) false = .ok r2 := b1
    have a1 : tFunc mod (X 0) 0 (.pair (elapsed l k 1).1 (elapsed l k 1).2) false = .ok r1 := a1
    rw [e0, b1] at a1
    rw [a2, b2, Except.ok.inj a1]
  have s1 := C148_paths_solve h hlag hself hl hk st eps X hX
  have s2 := C148_paths_solve h hlag hself hl hk st' eps' X' hX'
  constructor
  · have q1 := s1.eqs 0
    have q2 := s2.eqs 0
    unfold EqsHold at q1 q2
    simp only [prev, shockAt, e0, e1] at q1 q2
    funext i
    have w1 := congrFun q1 i
    have w2 := congrFun q2 i
    simp only [Pi.add_apply, Pi.zero_apply] at w1 w2 ⊢
    have w1 : _ + (D.C *ᵥ lagVal lay st) i + (D.D *ᵥ eps) i = 0 := w1
    have w2 : _ + (D.C *ᵥ lagVal lay st') i + (D.D *ᵥ eps') i = 0 := w2
    linear_combination w1 - w2
  · intro hb
    have q1 := s1.slack 0 hb
    have q2 := s2.slack 0 hb
    unfold notional at q1 q2
    simp only [prev, shockAt, e0] at q1 q2
    linear_combination q2 - q1

/-- **C184**, the converse: the next state and the durations tell what the past and the shocks contributed to the equations, and, unless the constraint
binds now, what they contributed to the constraint. -/
theorem C184_recovered (h : Succeeded lay orc lMax kMax sched mod) (hk1 : 1 ≤ kMax) (hlag : Spec.LagsNotExpected D) (hself : D.rb D.cvar ≠ 1)
    {st st' : p ⊕ z → K} {eps eps' : ε → K} {lin : Bool} {r r' : Step z p K}
    (hr : tFunc mod st eps .none lin = .ok r) (hr' : tFunc mod st' eps' .none lin = .ok r') (hs : r.state = r'.state) (hl : r.l = r'.l) (hk : r.k = r'.k) :
    D.C *ᵥ lagVal lay st + D.D *ᵥ eps = D.C *ᵥ lagVal lay st' + D.D *ᵥ eps' ∧
      (¬ BindsAt r.l r.k 0 → Spec.SameInput (Spec.asSolved D) (lagVal lay st) eps (lagVal lay st') eps') := by
  have main : ∀ (q q' : Step z p K), q.state = q'.state → q.l ≤ lMax → q.k ≤ kMax → tFunc mod st eps (.pair q.l q.k) false = .ok q →
      tFunc mod st' eps' (.pair q.l q.k) false = .ok q' → D.C *ᵥ lagVal lay st + D.D *ᵥ eps = D.C *ᵥ lagVal lay st' + D.D *ᵥ eps' ∧
      (¬ BindsAt q.l q.k 0 → Spec.SameInput (Spec.asSolved D) (lagVal lay st) eps (lagVal lay st') eps') := by
    intro q q' a b c d e
    obtain ⟨g1, g2⟩ := recovered_pair h hlag hself b c d e a
    exact ⟨g1, fun hb => ⟨g1, g2 hb⟩⟩
  obtain ⟨r1, a1, a2, a3⟩ := tFunc_endo h hk1 st eps lin
  rw [hr] at a1
  obtain rfl := Except.ok.inj a1
  cases lin with
  | true =>
    obtain ⟨r2, b1, -, b2⟩ := tFunc_imposed h st eps true (Nat.zero_le lMax) (Nat.zero_le kMax)
    have hr0 : tFunc mod st eps (.pair (0 : Nat) (0 : Nat)) true = .ok r := hr
    rw [hr0] at b1
    obtain rfl := Except.ok.inj b1
    obtain ⟨b2, b3⟩ := b2 rfl
    have := main r r' hs a2 a3 (by rw [b2, b3]; exact hr) (by rw [b2, b3]; exact hr')
    exact this
  | false =>
    obtain ⟨q, c1, c2, c3, c4⟩ := C14_impose_found_equilibrium h hk1 st eps r hr
    obtain ⟨q', d1, d2, d3, d4⟩ := C14_impose_found_equilibrium h hk1 st' eps' r' hr'
    rw [← hl, ← hk] at d1
    have e1 : q.l = r.l := c3
    have e2 : q.k = r.k := c4
    have := main q q' (by rw [c2, d2, hs]) (by omega) (by omega) (by rw [e1, e2]; exact c1) (by rw [e1, e2]; exact d1)
    rw [e1, e2] at this
    exact this

/-- **C184**, identification: if no two shock vectors have the same effect on the equations, a simulated path and its durations determine the shocks. -/
theorem C184_shocks_identified (h : Succeeded lay orc lMax kMax sched mod) (hk1 : 1 ≤ kMax) (hlag : Spec.LagsNotExpected D) (hself : D.rb D.cvar ≠ 1)
    (hinj : ∀ e e' : ε → K, D.D *ᵥ e = D.D *ᵥ e' → e = e') (lin : Bool) : ∀ (es es' : List (ε → K)) (st : p ⊕ z → K) (res res' : SimRes z p K),
    simLoop mod lin st es = .ok res → simLoop mod lin st es' = .ok res' → res.X = res'.X → res.LK = res'.LK → es = es' := by
  have hhead : ∀ (es : List (ε → K)) (st : p ⊕ z → K) (res : SimRes z p K), simLoop mod lin st es = .ok res → ∃ t, res.X = st :: t := by
    intro es st res hs
    cases es with
    | nil => simp only [simLoop, Except.ok.injEq] at hs; subst hs; exact ⟨_, rfl⟩
    | cons e es =>
      simp only [simLoop] at hs
      cases ht : tFunc mod st e .none lin with
      | error err => rw [ht] at hs; cases hs
      | ok r =>
        rw [ht] at hs
        cases hs' : simLoop mod lin r.state es with
        | error err => simp only [hs'] at hs; cases hs
        | ok res' => simp only [hs', Except.ok.injEq] at hs; subst hs; exact ⟨_, rfl⟩
  have hcons : ∀ (e : ε → K) (es : List (ε → K)) (st : p ⊕ z → K) (res : SimRes z p K), simLoop mod lin st (e :: es) = .ok res →
      ∃ r q, tFunc mod st e .none lin = .ok r ∧ simLoop mod lin r.state es = .ok q ∧ res.X = st :: q.X ∧ res.LK = (r.l, r.k) :: q.LK := by
    intro e es st res hs
    simp only [simLoop] at hs
    cases ht : tFunc mod st e .none lin with
    | error err => rw [ht] at hs; cases hs
    | ok r =>
      rw [ht] at hs
      cases hs' : simLoop mod lin r.state es with
      | error err => simp only [hs'] at hs; cases hs
      | ok q => simp only [hs', Except.ok.injEq] at hs; subst hs; exact ⟨r, q, rfl, hs', rfl, rfl⟩
  intro es
  induction es with
  | nil =>
    intro es' st res res' h1 h2 _ h4
    cases es' with
    | nil => rfl
    | cons e' es' =>
      obtain ⟨r, q, _, _, _, g⟩ := hcons e' es' st res' h2
      simp only [simLoop, Except.ok.injEq] at h1
      subst h1
      rw [g] at h4
      cases h4
  | cons e es ih =>
    intro es' st res res' h1 h2 h3 h4
    obtain ⟨r, q, a1, a2, a3, a4⟩ := hcons e es st res h1
    cases es' with
    | nil =>
      simp only [simLoop, Except.ok.injEq] at h2
      subst h2
      rw [a4] at h4
      cases h4
    | cons e' es' =>
      obtain ⟨r', q', b1, b2, b3, b4⟩ := hcons e' es' st res' h2
      rw [a3, b3, List.cons.injEq] at h3
      rw [a4, b4, List.cons.injEq, Prod.mk.injEq] at h4
      obtain ⟨t, ht⟩ := hhead es r.state q a2
      obtain ⟨t', ht'⟩ := hhead es' r'.state q' b2
      have hst : r.state = r'.state := by
        have := h3.2
        rw [ht, ht', List.cons.injEq] at this
        exact this.1
      have hc := (C184_recovered h hk1 hlag hself a1 b1 hst h4.1.1 h4.1.2).1
      have he : e = e' := hinj e e' (add_left_cancel hc)
      rw [← hst] at b2
      rw [he, ih es' r.state q q' a2 b2 h3.2 h4.2]

end

/-- Non-vacuity of C184: in the first example model, the shock `-9/4` from the steady state and no shock after `y = -3` contribute the same; the
constraint binds. -/
theorem C184_hypotheses_met : ∃ mod r, Succeeded Ex1.lay Ex1.orc 2 30 (serial 30) mod ∧ Spec.LagsNotExpected Ex1.decl ∧
    Ex1.decl.rb Ex1.decl.cvar ≠ 1 ∧ Spec.LinearStable mod ∧ Spec.Determinate (E := Fin 1) (ε := Fin 1) Spec.DiesOut (Spec.asSolved Ex1.decl) ∧
    Spec.SameInput (Spec.asSolved Ex1.decl) (lagVal Ex1.lay 0) (fun _ => -9/4) (lagVal Ex1.lay (fun _ => -3)) 0 ∧
    tFunc mod 0 (fun _ => -9/4) .none false = .ok r ∧ tFunc mod (fun _ => -3) 0 .none false = .ok r ∧ r.k = 1 ∧ r.state (.inl 0) = -1 := by
  obtain ⟨mod, h⟩ := Ex1.succeeds (b := -1) 2 30 (Ex1.serial_perm 2 30)
  obtain ⟨r, hr, _, hk, _, hs, _⟩ := Ex1.binding_run 2 30 (by omega) (by omega) h
  have hl : Spec.LagsNotExpected Ex1.decl := Spec.LagsNotExpected.of_rc rfl
  have hself : Ex1.decl.rb Ex1.decl.cvar ≠ 1 := by
    show (if (1 : Fin 2) = 0 then (1 : Rat) else 0) ≠ 1
    simp
  have hz : ∀ st, lagVal Ex1.lay st 0 = st (.inr 0) := by
    intro st
    unfold lagVal
    rw [if_neg (Ex1.not_inall _)]
    exact Ex1.lay.val_z st 0
  have hi : Spec.SameInput (Spec.asSolved Ex1.decl) (lagVal Ex1.lay 0) (fun _ => -9/4) (lagVal Ex1.lay (fun _ => -3)) 0 := by
    constructor
    · funext e
      simp [Spec.asSolved, Ex1.declB, mulVec, dotProduct, hz]
      norm_num
    · simp [Spec.asSolved, Ex1.declB, dotProduct]
  refine ⟨mod, r, h, hl, hself, Ex1.stable h, Ex1.determinate', hi, hr, ?_, hk, hs⟩
  rw [← C184_stable h (by omega) hl hself (Ex1.stable h) Ex1.determinate' hi .none false]
  exact hr

/-- Non-vacuity of C184_shocks_identified. -/
example : ∀ e e' : Fin 1 → Rat, Ex1.decl.D *ᵥ e = Ex1.decl.D *ᵥ e' → e = e' := by
  intro e e' h
  funext i
  have := congrFun h 0
  simp only [Ex1.declB, mulVec, dotProduct, Fin.sum_univ_one, Fin.isValue] at this
  rw [Subsingleton.elim i 0]
  linarith

end Pydsge
