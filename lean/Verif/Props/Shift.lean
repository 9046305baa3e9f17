import Verif.Props.Causal

/-!
# C157: the date of a shock only shifts the response
-/

set_option autoImplicit false
set_option linter.unusedSectionVars false
set_option linter.unusedSimpArgs false

namespace Pydsge

open Matrix Pydsge.Engine Pydsge.Spec Pydsge.Tools Pydsge.GenSys

section Any
variable {z ε p o K : Type} [Fintype z] [Fintype ε] [Fintype p] [Fintype o] [DecidableEq z] [DecidableEq ε] [DecidableEq p]
  [Field K] [LinearOrder K]

/-- The same shocks, each `D` periods later. -/
def Spec.delayed (D : Nat) (sl : List (ShockSpec ε K)) : List (ShockSpec ε K) := sl.map fun s => (s.1, s.2.1, s.2.2 + (D : Int))

theorem shkVec_delayed (sl : List (ShockSpec ε K)) (D t : Nat) : shkVec (Spec.delayed D sl) (D + t) = shkVec sl t := by
  rw [← shkVec_shift, Spec.delayed, List.map_map]
  congr 1
  conv_rhs => rw [← List.map_id sl]
  apply List.map_congr_left
  intro s _
  simp

theorem shkVec_before (sl : List (ShockSpec ε K)) (hper : ∀ s ∈ sl, 0 ≤ s.2.2) (D t : Nat) (ht : t < D) :
    shkVec (Spec.delayed D sl) t = 0 := by
  induction sl using List.reverseRecOn with
  | nil => rfl
  | append_singleton sl s ih =>
    have h1 := hper s (by simp)
    have h2 := ih (fun s hs => hper s (by simp [hs]))
    unfold Spec.delayed at h2 ⊢
    rw [List.map_append, shkVec_append, h2]
    simp only [List.map_cons, List.map_nil, List.foldl_cons, List.foldl_nil]
    rw [if_neg (by omega)]

/-- Steps that see the same shocks are the same, whatever their dates, if nothing is imposed. -/
theorem irfStep_moved {m : Model z ε p o K} {sl sl' : List (ShockSpec ε K)} {sk : SetK} (hsk : sk = .none ∨ sk = .bool false)
    {force lin : Bool} (hp : force = false ∨ anyPeriod sl = anyPeriod sl') (s : IrfState z p K) {t t' : Nat}
    (ht : shkVec sl t = shkVec sl' t') :
    irfStep m ⟨sl, sk, force, lin⟩ s t = irfStep m ⟨sl', sk, force, lin⟩ s t' := by
  have hk : setKEff sk t = setKEff sk t' := by rcases hsk with rfl | rfl <;> rfl
  unfold irfStep
  simp only [ht, hk]
  rcases hp with rfl | hp
  · simp only [Bool.false_and]
  · rw [hp]

theorem irfRun_moved {m : Model z ε p o K} {sl sl' : List (ShockSpec ε K)} {sk : SetK} (hsk : sk = .none ∨ sk = .bool false)
    {force lin : Bool} (hp : force = false ∨ anyPeriod sl = anyPeriod sl') : ∀ (n t t' : Nat) (s : IrfState z p K),
    (∀ i < n, shkVec sl (t + i) = shkVec sl' (t' + i)) →
    irfRun m ⟨sl, sk, force, lin⟩ t s n = irfRun m ⟨sl', sk, force, lin⟩ t' s n := by
  intro n
  induction n with
  | zero => intro t t' s _; rfl
  | succ n ih =>
    intro t t' s h
    unfold irfRun
    have h0 : shkVec sl t = shkVec sl' t' := h 0 (by omega)
    rw [irfStep_moved hsk hp s h0]
    cases irfStep m ⟨sl', sk, force, lin⟩ s t' with
    | error e => rfl
    | ok s' =>
      simp only
      rw [ih (t + 1) (t' + 1) s' (fun i hi => by
        have := h (i + 1) (by omega)
        rwa [show t + 1 + i = t + (i + 1) by omega, show t' + 1 + i = t' + (i + 1) by omega])]

end Any

section Model
variable {E ν ε o K : Type} [Fintype E] [Fintype ν] [Fintype ε] [Fintype o]
  [DecidableEq E] [DecidableEq ν] [DecidableEq ε] [Field K] [LinearOrder K] [IsStrictOrderedRing K]
variable {H z p : Type} [DecidableEq H] [Fintype H] [Fintype z] [Fintype p] [DecidableEq z] [DecidableEq p]
variable {tol : K} {m : Input E ν ε o K} [DecidablePred (inall tol m)] {lay : Layout tol m H z p}
  {orc : Oracle (Rows E H ε) (z ⊕ ε) p K} {lMax kMax : Nat} {sched : Nat → List Nat} {mod : Model z ε p o K}

/-- A period without shocks at the steady state, whatever `force_init_equil` is. -/
theorem irfStep_rest (h : Succeeded lay orc lMax kMax sched mod) (hx : m.xbar < 0) {sl : List (ShockSpec ε K)} {sk : SetK}
    (hsk : sk = .none ∨ sk = .bool false) (force lin : Bool) {t : Nat} (ht : shkVec sl t = 0) :
    irfStep mod ⟨sl, sk, force, lin⟩ ⟨0, 0, 0, 0, false⟩ t = .ok ⟨0, 0, 0, 0, false⟩ := by
  obtain ⟨c, hm⟩ := genSys_ok h.perm h.gen
  obtain ⟨r, h1, h2, h3, h4, h5⟩ := C10_steady_state_fixed_point h hx lin
  obtain ⟨r', g1, g2, g3, g4, g5⟩ := C10_steady_state_fixed_point h hx true
  rw [tFunc_linear] at g1
  have gl : tFunc mod 0 0 (.pair 0 0) lin = .ok r' := by
    cases lin with
    | true => exact g1
    | false => exact g1
  unfold irfStep
  simp only [ht, h1]
  split_ifs with hf
  · simp only [continued, ne_eq, not_true_eq_false, if_false, CharP.cast_eq_zero, zero_sub, Int.reduceNeg, h3, h4]
    rw [show max (-1 : Int) 0 = 0 by decide]
    simp [tooLong, gl, g2, g3, g4, g5]
  · rcases hsk with rfl | rfl <;> simp [setKEff, tooLong, tFunc_bool, h1, h2, h3, h4, h5]

/-- With `linear=True` the argument `force_init_equil` is irrelevant, for periods that start without a spell. -/
theorem irfRun_linear_force (h : Succeeded lay orc lMax kMax sched mod) (sl : List (ShockSpec ε K)) {sk : SetK}
    (hsk : sk = .none ∨ sk = .bool false) (force : Bool) : ∀ (n t : Nat) (s : IrfState z p K), s.l = 0 → s.k = 0 →
    irfRun mod ⟨sl, sk, force, true⟩ t s n = irfRun mod ⟨sl, sk, false, true⟩ t s n := by
  intro n
  induction n with
  | zero => intro t s _ _; rfl
  | succ n ih =>
    intro t s hl hk
    obtain ⟨s', e1, ⟨e2, e3⟩, -⟩ := irfStep_linear h sl hsk false s ⟨hl, hk⟩ t
    have hstep : irfStep mod ⟨sl, sk, force, true⟩ s t = irfStep mod ⟨sl, sk, false, true⟩ s t := by
      rw [irfStep_free hsk]
      obtain ⟨r, h1, -, h2⟩ := tFunc_imposed h s.state (shkVec sl t) true (Nat.zero_le lMax) (Nat.zero_le kMax)
      obtain ⟨h2, h3⟩ := h2 rfl
      rw [tFunc_linear] at h1
      unfold irfStep
      simp only [tFunc_linear, h1]
      split_ifs with hf
      · simp only [hl, hk, continued, ne_eq, not_true_eq_false, if_false, CharP.cast_eq_zero, zero_sub, Int.reduceNeg, h2, h3]
        rw [show max (-1 : Int) 0 = 0 by decide]
        simp [tooLong, h2, h3]
      · rcases hsk with rfl | rfl <;> simp [setKEff, tooLong]
    unfold irfRun
    rw [hstep, e1]
    simp only [ih (t + 1) s' e2 e3]

/-- **C157** (holds if the equilibrium is recomputed every period, or with `linear=True`, or if there is a shock outside period 0
already): from the steady state, with nothing imposed, shocks that all occur `D` periods later give `D` periods at the steady state
(no spell, no flag), followed by the original response: states, spells, flags and failures. -/
theorem C157_delay_partial (h : Succeeded lay orc lMax kMax sched mod) (hx : m.xbar < 0) (sl : List (ShockSpec ε K))
    (hper : ∀ s ∈ sl, 0 ≤ s.2.2) {sk : SetK} (hsk : sk = .none ∨ sk = .bool false) (force lin : Bool)
    (hf : force = false ∨ lin = true ∨ sl = [] ∨ ∃ s ∈ sl, s.2.2 ≠ 0) (D T : Nat) :
    irfs mod ⟨Spec.delayed D sl, sk, force, lin⟩ 0 (D + T) =
      (irfs mod ⟨sl, sk, force, lin⟩ 0 T).map (List.replicate D ⟨0, 0, 0, 0, false⟩ ++ ·) := by
  have pre : ∀ (force lin : Bool) (n t : Nat), t + n ≤ D →
      irfRun mod ⟨Spec.delayed D sl, sk, force, lin⟩ t ⟨0, 0, 0, 0, false⟩ n = .ok (List.replicate n ⟨0, 0, 0, 0, false⟩) := by
    intro force lin n
    induction n with
    | zero => intro t _; rfl
    | succ n ih =>
      intro t ht
      unfold irfRun
      rw [irfStep_rest h hx hsk force lin (shkVec_before sl hper D t (by omega))]
      simp only [ih (t + 1) (by omega), List.replicate_succ]
  have main : ∀ (force : Bool), (force = false ∨ anyPeriod (Spec.delayed D sl) = anyPeriod sl) →
      irfs mod ⟨Spec.delayed D sl, sk, force, lin⟩ 0 (D + T) =
        (irfs mod ⟨sl, sk, force, lin⟩ 0 T).map (List.replicate D ⟨0, 0, 0, 0, false⟩ ++ ·) := by
    intro force hp
    unfold irfs
    rw [irfRun_split D T 0 _ _ (pre force lin D 0 (by omega)), Nat.zero_add]
    have hlast : (List.replicate D (⟨0, 0, 0, 0, false⟩ : IrfState z p K)).getLastD ⟨0, 0, 0, 0, false⟩ = ⟨0, 0, 0, 0, false⟩ := by
      cases D with
      | zero => rfl
      | succ D => rw [List.getLastD_eq_getLast?, List.getLast?_replicate]; simp
    rw [hlast, irfRun_moved hsk hp T D 0 _ (fun i _ => by rw [shkVec_delayed, Nat.zero_add])]
  rcases hf with hf | hf | hf | ⟨s, hs, hs0⟩
  · exact main force (.inl hf)
  · subst hf
    have := main false (.inl rfl)
    unfold irfs at this ⊢
    rw [irfRun_linear_force h _ hsk force _ _ _ rfl rfl, irfRun_linear_force h _ hsk force _ _ _ rfl rfl]
    exact this
  · exact main force (.inr (by rw [hf]; rfl))
  · refine main force (.inr ?_)
    have h1 : anyPeriod sl = true := List.any_eq_true.2 ⟨s, hs, by simp [hs0]⟩
    have h2 : anyPeriod (Spec.delayed D sl) = true := by
      refine List.any_eq_true.2 ⟨(s.1, s.2.1, s.2.2 + (D : Int)), List.mem_map.2 ⟨s, hs, rfl⟩, ?_⟩
      have := hper s hs
      simp only [ne_eq, decide_eq_true_eq, decide_not, Bool.not_eq_true', decide_eq_false_iff_not]
      omega
    rw [h1, h2]

end Model

section NonVacuity
open Pydsge.Ex1

/-- **C157** refuted: with default arguments a shock of −9 in period 0 has the spell `(0, 1)` in period 0 and again in the period after.
The same shock in period 1 has the spell `(0, 1)` in period 1 and none in the period after: the spell is then continued instead of
recomputed. -/
theorem C157_delay_refuted : ∃ mod, Succeeded Ex1.lay Ex1.orc 3 1 (serial 1) mod ∧
    ∃ s0 s1 d0 d1 d2, irfs mod ⟨[((0 : Fin 1), (-9 : Rat), 0)], .bool false, forceDefault none (.bool false), false⟩ 0 2 = .ok [s0, s1] ∧
      irfs mod ⟨Spec.delayed 1 [((0 : Fin 1), (-9 : Rat), 0)], .bool false, forceDefault none (.bool false), false⟩ 0 3 =
        .ok [d0, d1, d2] ∧
      d0 = ⟨0, 0, 0, 0, false⟩ ∧ d1 = s0 ∧ (s1.l, s1.k) = (0, 1) ∧ (d2.l, d2.k) = (0, 0) := by
  obtain ⟨mod, h⟩ := ex1_succeeds 3 1
  have e0 : shkVec [((0 : Fin 1), (-9 : Rat), (0 : Int))] 0 0 = -9 := by simp [shkVec]
  have e1 : shkVec [((0 : Fin 1), (-9 : Rat), (0 : Int))] 1 = 0 := by simp [shkVec]
  obtain ⟨r0, a1, a2, a3, a4, a5⟩ := low_run 3 (by omega) h 0 (shkVec [((0 : Fin 1), (-9 : Rat), (0 : Int))] 0)
    (by rw [e0]; norm_num)
  obtain ⟨r1, b1, b2, b3, b4, b5⟩ := low_run 3 (by omega) h r0.state 0
    (by rw [a5, e0]; norm_num)
  obtain ⟨r2, c1, c2, -⟩ := tFunc_imposed h r0.state 0 false (Nat.zero_le 3) (Nat.zero_le 1)
  obtain ⟨c2, c3⟩ := c2 rfl
  simp only [Nat.cast_zero] at c1
  have f0 : shkVec (Spec.delayed 1 [((0 : Fin 1), (-9 : Rat), (0 : Int))]) 0 = 0 := by simp [shkVec, Spec.delayed]
  have f1 : shkVec (Spec.delayed 1 [((0 : Fin 1), (-9 : Rat), (0 : Int))]) 1 = shkVec [((0 : Fin 1), (-9 : Rat), (0 : Int))] 0 :=
    shkVec_delayed _ 1 0
  have f2 : shkVec (Spec.delayed 1 [((0 : Fin 1), (-9 : Rat), (0 : Int))]) 2 = 0 := by simp [shkVec, Spec.delayed]
  have g1 : anyNonzero (shkVec [((0 : Fin 1), (-9 : Rat), (0 : Int))] 0) = true := by
    unfold anyNonzero; rw [decide_eq_true_iff]; exact ⟨0, by rw [e0]; norm_num⟩
  have step0 := irfStep_rest h (by show (inpB (-1)).xbar < 0; simp [yaml, Input.ofYaml, declB]) (sk := .bool false) (.inr rfl)
    (forceDefault none (.bool false)) false f0
  refine ⟨mod, h, ⟨r0.state, r0.l, r0.k, 0 ||| r0.flag, false⟩, ⟨r1.state, r1.l, r1.k, (0 ||| r0.flag) ||| r1.flag, false⟩,
    ⟨0, 0, 0, 0, false⟩, ⟨r0.state, r0.l, r0.k, 0 ||| r0.flag, false⟩,
    ⟨r2.state, r2.l, r2.k, (0 ||| r0.flag) ||| r2.flag, true⟩, ?_, ?_, rfl, rfl, ?_, ?_⟩
  · rw [← e1] at b1
    simp [irfs, irfRun, irfStep, anyPeriod, setKEff, tooLong, tFunc_bool, a1, b1]
  · have hany : anyPeriod (Spec.delayed 1 [((0 : Fin 1), (-9 : Rat), (0 : Int))]) = true := by decide
    generalize Spec.delayed 1 [((0 : Fin 1), (-9 : Rat), (0 : Int))] = sl at f1 f2 step0 hany ⊢
    have step1 : irfStep mod ⟨sl, .bool false, forceDefault none (.bool false), false⟩ ⟨0, 0, 0, 0, false⟩ 1 =
        .ok ⟨r0.state, r0.l, r0.k, 0 ||| r0.flag, false⟩ := by
      simp only [irfStep, f1, g1]
      simp [setKEff, tooLong, tFunc_bool, a1]
    have step2 : irfStep mod ⟨sl, .bool false, forceDefault none (.bool false), false⟩
        ⟨r0.state, r0.l, r0.k, 0 ||| r0.flag, false⟩ 2 = .ok ⟨r2.state, r2.l, r2.k, (0 ||| r0.flag) ||| r2.flag, true⟩ := by
      simp only [irfStep, f2, anyNonzero_false.2, hany, b1, a2, a3, b2, b3]
      simp [forceDefault, SetK.any, tooLong, continued, c1]
    simp only [irfs, irfRun, step0, step1, step2, Nat.zero_add, Nat.reduceAdd]
  · simp only [b2, b3]
  · simp only [c2, c3]

/-- The theorem applies: shocks in periods 0 and 2, with default arguments, three periods later. -/
example : ∃ mod, Succeeded Ex1.lay Ex1.orc 3 2 (serial 2) mod ∧
    irfs mod ⟨[((0 : Fin 1), (-9 : Rat), 3), (0, 1, 5)], .bool false, true, false⟩ 0 10 =
      (irfs mod ⟨[((0 : Fin 1), (-9 : Rat), 0), (0, 1, 2)], .bool false, true, false⟩ 0 7).map
        (List.replicate 3 ⟨0, 0, 0, 0, false⟩ ++ ·) := by
  obtain ⟨mod, h⟩ := ex1_succeeds 3 2
  exact ⟨mod, h, C157_delay_partial h (by show (inpB (-1)).xbar < 0; simp [yaml, Input.ofYaml, declB])
    [((0 : Fin 1), (-9 : Rat), 0), (0, 1, 2)] (by simp) (.inr rfl) true false
    (.inr (.inr (.inr ⟨(0, 1, 2), by simp, by decide⟩))) 3 7⟩

end NonVacuity
end Pydsge
