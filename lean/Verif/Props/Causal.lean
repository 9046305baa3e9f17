import Verif.Props.Irfs
import Verif.Props.Sim

/-!
# C107, C108, C109: horizons, causality, and impulse responses as simulations
-/

set_option autoImplicit false
set_option linter.unusedSectionVars false
set_option linter.unusedSimpArgs false

namespace Pydsge

open Matrix Pydsge.Engine Pydsge.Spec Pydsge.Tools Pydsge.GenSys

section Any
variable {z ε p o K : Type} [Fintype z] [Fintype ε] [Fintype p] [Fintype o] [DecidableEq z] [DecidableEq ε] [DecidableEq p]
  [Field K] [LinearOrder K]

theorem irfRun_prefix {m : Model z ε p o K} {a : IrfArgs z ε p K} : ∀ (T n t0 : Nat) (st : IrfState z p K),
    (∀ xs, irfRun m a t0 st (T + n) = .ok xs → irfRun m a t0 st T = .ok (xs.take T)) ∧
    (∀ e, irfRun m a t0 st T = .error e → irfRun m a t0 st (T + n) = .error e) := by
  intro T
  induction T with
  | zero => intro n t0 st; exact ⟨fun xs _ => by simp [irfRun], fun e h => by simp [irfRun] at h⟩
  | succ T ih =>
    intro n t0 st
    rw [show T + 1 + n = (T + n) + 1 by omega]
    unfold irfRun
    cases hs : irfStep m a st t0 with
    | error e => exact ⟨fun xs h => (by cases h), fun e h => h⟩
    | ok s =>
      obtain ⟨h1, h2⟩ := ih n (t0 + 1) s
      constructor
      · intro xs h
        simp only at h ⊢
        cases hr : irfRun m a (t0 + 1) s (T + n) with
        | error e => rw [hr] at h; cases h
        | ok rest =>
          rw [hr, Except.ok.injEq] at h
          rw [h1 rest hr, ← h]
          rfl
      · intro e h
        simp only at h ⊢
        cases hr : irfRun m a (t0 + 1) s T with
        | error e' =>
          rw [hr] at h
          rw [h2 e' hr]
          exact h
        | ok rest => rw [hr] at h; cases h

/-- **C107**: a longer horizon does not change the earlier periods, whatever the other arguments are. -/
theorem C107_horizon (m : Model z ε p o K) (a : IrfArgs z ε p K) (st : p ⊕ z → K) (T n : Nat) :
    (∀ xs, irfs m a st (T + n) = .ok xs → irfs m a st T = .ok (xs.take T)) ∧
    (∀ e, irfs m a st T = .error e → irfs m a st (T + n) = .error e) :=
  irfRun_prefix T n 0 _

/-- What a period of an impulse response shows. -/
def Spec.shown (s : IrfState z p K) : (p ⊕ z → K) × Nat × Nat := (s.state, s.l, s.k)

theorem shkVec_shift (sl : List (ShockSpec ε K)) (T t : Nat) :
    shkVec (sl.map fun s => (s.1, s.2.1, s.2.2 - (T : Int))) t = shkVec sl (T + t) := by
  induction sl using List.reverseRecOn with
  | nil => rfl
  | append_singleton sl s ih =>
    rw [List.map_append, shkVec_append, shkVec_append, ih]
    simp only [List.map_cons, List.map_nil, List.foldl_cons, List.foldl_nil]
    by_cases h : s.2.2 = ((T + t : Nat) : Int)
    · rw [if_pos h, if_pos (by push_cast at h; omega)]
    · rw [if_neg h, if_neg (by push_cast at h; omega)]

/-- A step without force depends on the past only through the state. -/
theorem irfStep_free {m : Model z ε p o K} {sl : List (ShockSpec ε K)} {sk : SetK} (hsk : sk = .none ∨ sk = .bool false)
    {lin : Bool} (s : IrfState z p K) (t : Nat) :
    irfStep m ⟨sl, sk, false, lin⟩ s t = match tFunc m s.state (shkVec sl t) .none lin with
      | .error e => .error e
      | .ok r => .ok ⟨r.state, r.l, r.k, s.flag ||| r.flag, s.mult⟩ := by
  rcases hsk with rfl | rfl
  · simp only [irfStep, Bool.false_and, Bool.false_eq_true, if_false, setKEff, tooLong, Bool.or_false]
    cases tFunc m s.state (shkVec sl t) .none lin <;> rfl
  · simp only [irfStep, Bool.false_and, Bool.false_eq_true, if_false, setKEff, tooLong, Bool.or_false, tFunc_bool]
    cases tFunc m s.state (shkVec sl t) .none lin <;> rfl

/-- Runs without force from the same state see only the shocks. -/
theorem irfRun_free {m : Model z ε p o K} {sl sl' : List (ShockSpec ε K)} {sk : SetK} (hsk : sk = .none ∨ sk = .bool false)
    {lin : Bool} : ∀ (n t0 t1 : Nat) (s s' : IrfState z p K), s.state = s'.state →
    (∀ i < n, shkVec sl (t0 + i) = shkVec sl' (t1 + i)) →
    (irfRun m ⟨sl, sk, false, lin⟩ t0 s n).map (·.map Spec.shown) = (irfRun m ⟨sl', sk, false, lin⟩ t1 s' n).map (·.map Spec.shown) := by
  intro n
  induction n with
  | zero => intro t0 t1 s s' _ _; rfl
  | succ n ih =>
    intro t0 t1 s s' h hsh
    unfold irfRun
    rw [irfStep_free hsk, irfStep_free hsk, h, show shkVec sl t0 = shkVec sl' t1 from hsh 0 (by omega)]
    cases hr : tFunc m s'.state (shkVec sl' t1) .none lin with
    | error e => rfl
    | ok r =>
      have := ih (t0 + 1) (t1 + 1) ⟨r.state, r.l, r.k, s.flag ||| r.flag, s.mult⟩ ⟨r.state, r.l, r.k, s'.flag ||| r.flag, s'.mult⟩
        rfl (fun i hi => by have := hsh (i + 1) (by omega); rwa [show t0 + 1 + i = t0 + (i + 1) by omega,
          show t1 + 1 + i = t1 + (i + 1) by omega])
      simp only
      cases h1 : irfRun m ⟨sl, sk, false, lin⟩ (t0 + 1) ⟨r.state, r.l, r.k, s.flag ||| r.flag, s.mult⟩ n with
      | error e =>
        rw [h1] at this
        cases h2 : irfRun m ⟨sl', sk, false, lin⟩ (t1 + 1) ⟨r.state, r.l, r.k, s'.flag ||| r.flag, s'.mult⟩ n with
        | error e' => rw [h2] at this; simpa [Except.map] using this
        | ok ys => rw [h2] at this; simp [Except.map] at this
      | ok xs =>
        rw [h1] at this
        cases h2 : irfRun m ⟨sl', sk, false, lin⟩ (t1 + 1) ⟨r.state, r.l, r.k, s'.flag ||| r.flag, s'.mult⟩ n with
        | error e' => rw [h2] at this; simp [Except.map] at this
        | ok ys =>
          rw [h2] at this
          simp only [Except.map, Except.ok.injEq] at this ⊢
          simp only [List.map_cons, this, Spec.shown]

theorem irfRun_split {m : Model z ε p o K} {a : IrfArgs z ε p K} : ∀ (T n t0 : Nat) (st : IrfState z p K) (xs : List (IrfState z p K)),
    irfRun m a t0 st T = .ok xs → irfRun m a t0 st (T + n) =
      (irfRun m a (t0 + T) (xs.getLastD st) n).map (xs ++ ·) := by
  intro T
  induction T with
  | zero =>
    intro n t0 st xs h
    simp only [irfRun, Except.ok.injEq] at h
    subst h
    simp only [Nat.zero_add, Nat.add_zero, List.getLastD_nil, List.nil_append]
    cases irfRun m a t0 st n <;> rfl
  | succ T ih =>
    intro n t0 st xs h
    rw [show T + 1 + n = (T + n) + 1 by omega]
    unfold irfRun at h
    conv_lhs => unfold irfRun
    cases hs : irfStep m a st t0 with
    | error e => rw [hs] at h; cases h
    | ok s =>
      rw [hs] at h
      simp only at h ⊢
      cases hr : irfRun m a (t0 + 1) s T with
      | error e => rw [hr] at h; cases h
      | ok rest =>
        rw [hr, Except.ok.injEq] at h
        subst h
        rw [ih n (t0 + 1) s rest hr, show t0 + 1 + T = t0 + (T + 1) by omega, List.getLastD_cons]
        cases irfRun m a (t0 + (T + 1)) (rest.getLastD s) n <;> rfl

/-- **C107**, continuation: recalculating the equilibrium every period, `T + n` periods are `T` periods followed by `n` periods from
the state reached, with the shocks moved forward. -/
theorem C107_continue (m : Model z ε p o K) (sl : List (ShockSpec ε K)) {sk : SetK} (hsk : sk = .none ∨ sk = .bool false)
    (lin : Bool) (st : p ⊕ z → K) (T n : Nat) (xs : List (IrfState z p K)) (hx : irfs m ⟨sl, sk, false, lin⟩ st T = .ok xs) :
    (irfs m ⟨sl, sk, false, lin⟩ st (T + n)).map (·.map Spec.shown) =
      (irfs m ⟨sl.map fun s => (s.1, s.2.1, s.2.2 - (T : Int)), sk, false, lin⟩ ((xs.map (·.state)).getLastD st) n).map
        (fun ys => xs.map Spec.shown ++ ys.map Spec.shown) := by
  unfold irfs at hx ⊢
  rw [irfRun_split T n 0 _ xs hx, Nat.zero_add]
  have h1 : (xs.getLastD ⟨st, 0, 0, 0, false⟩).state = (xs.map (·.state)).getLastD st := by
    rw [List.getLastD_eq_getLast?, List.getLastD_eq_getLast?, List.getLast?_map]
    cases xs.getLast? <;> rfl
  have h2 := irfRun_free (m := m) (sl := sl) (sl' := sl.map fun s => (s.1, s.2.1, s.2.2 - (T : Int))) hsk (lin := lin) n T 0
    (xs.getLastD ⟨st, 0, 0, 0, false⟩) ⟨(xs.map (·.state)).getLastD st, 0, 0, 0, false⟩ h1
    (fun i _ => by rw [shkVec_shift, Nat.zero_add])
  cases h3 : irfRun m ⟨sl, sk, false, lin⟩ T (xs.getLastD ⟨st, 0, 0, 0, false⟩) n with
  | error e =>
    rw [h3] at h2
    cases h4 : irfRun m ⟨sl.map fun s => (s.1, s.2.1, s.2.2 - (T : Int)), sk, false, lin⟩ 0
        ⟨(xs.map (·.state)).getLastD st, 0, 0, 0, false⟩ n with
    | error e' => rw [h4] at h2; simpa [Except.map] using h2
    | ok ys => rw [h4] at h2; simp [Except.map] at h2
  | ok ys =>
    rw [h3] at h2
    cases h4 : irfRun m ⟨sl.map fun s => (s.1, s.2.1, s.2.2 - (T : Int)), sk, false, lin⟩ 0
        ⟨(xs.map (·.state)).getLastD st, 0, 0, 0, false⟩ n with
    | error e' => rw [h4] at h2; simp [Except.map] at h2
    | ok zs =>
      rw [h4] at h2
      simp only [Except.map, Except.ok.injEq] at h2 ⊢
      rw [List.map_append, h2]

/-- Two lists of shocks that say the same about the periods before `T`. -/
def Spec.SameUntil (T : Nat) (sl sl' : List (ShockSpec ε K)) : Prop :=
  ∀ t < T, ∀ u, Spec.ShocksAt sl t u ↔ Spec.ShocksAt sl' t u

theorem irfStep_congr {m : Model z ε p o K} {sl sl' : List (ShockSpec ε K)} {sk : SetK} {force lin : Bool}
    (hp : force = false ∨ anyPeriod sl = anyPeriod sl') (s : IrfState z p K) {t : Nat} (ht : shkVec sl t = shkVec sl' t) :
    irfStep m ⟨sl, sk, force, lin⟩ s t = irfStep m ⟨sl', sk, force, lin⟩ s t := by
  unfold irfStep
  simp only [ht]
  rcases hp with rfl | hp
  · simp only [Bool.false_and]
  · rw [hp]

/-- **C108** (holds with `force_init_equil=False`, or if both lists contain a shock outside period 0, or neither does): shocks of
later periods have no influence on the first `T` periods. -/
theorem C108_causal_partial (m : Model z ε p o K) {sl sl' : List (ShockSpec ε K)} (sk : SetK) (force lin : Bool) (st : p ⊕ z → K)
    (T : Nat) (hs : Spec.SameUntil T sl sl')
    (hp : force = false ∨ ((∃ s ∈ sl, s.2.2 ≠ 0) ↔ (∃ s ∈ sl', s.2.2 ≠ 0))) :
    irfs m ⟨sl, sk, force, lin⟩ st T = irfs m ⟨sl', sk, force, lin⟩ st T := by
  have hp' : force = false ∨ anyPeriod sl = anyPeriod sl' := by
    rcases hp with h | h
    · exact .inl h
    · right
      rw [Bool.eq_iff_iff]
      simpa [anyPeriod] using h
  have main : ∀ n t0 (s : IrfState z p K), t0 + n ≤ T →
      irfRun m ⟨sl, sk, force, lin⟩ t0 s n = irfRun m ⟨sl', sk, force, lin⟩ t0 s n := by
    intro n
    induction n with
    | zero => intro t0 s _; rfl
    | succ n ih =>
      intro t0 s h
      unfold irfRun
      rw [irfStep_congr hp' s ((shocksAt_iff sl' t0 _).1 ((hs t0 (by omega) _).1 (shocksAt_shkVec sl t0)))]
      cases irfStep m ⟨sl', sk, force, lin⟩ s t0 with
      | error e => rfl
      | ok s' => simp only [ih (t0 + 1) s' (by omega)]
  exact main T 0 _ (by omega)

/-- `es` are the shocks of the periods `0 … T-1`, as the rows of a matrix of residuals. -/
structure Spec.Residuals (sl : List (ShockSpec ε K)) (T : Nat) (es : List (ε → K)) : Prop where
  length : es.length = T
  each : ∀ (t : Nat) u, es[t]? = some u → Spec.ShocksAt sl t u

theorem residuals_eq {sl : List (ShockSpec ε K)} {T : Nat} {es : List (ε → K)} (h : Spec.Residuals sl T es) :
    es = (List.range T).map (shkVec sl) := by
  apply List.ext_getElem (by simp [h.length])
  intro i h1 h2
  rw [(shocksAt_iff sl i _).1 (h.each i _ (List.getElem?_eq_getElem h1))]
  simp

/-- **C109**: without an imposed spell, and recalculating the equilibrium every period, `irfs` is `simulate` for the same shocks: the
states after the initial one, the equilibria and the flag agree, and one fails if and only if the other does, in the same way. -/
theorem C109_irfs_is_simulate (m : Model z ε p o K) (sl : List (ShockSpec ε K)) {sk : SetK} (hsk : sk = .none ∨ sk = .bool false)
    {force : Bool} (hf : force = false ∨ ∀ s ∈ sl, s.2.2 = 0) (lin : Bool) (st : p ⊕ z → K) (T : Nat)
    (es : List (ε → K)) (hes : Spec.Residuals sl T es) :
    (∀ xs, irfs m ⟨sl, sk, force, lin⟩ st T = .ok xs → ∃ res, simulate m lin none (· * ·) st es = .ok res ∧
      res.X = st :: xs.map (·.state) ∧ res.LK = xs.map (fun s => (s.l, s.k)) ∧ ((xs.map (·.flag)).getLastD 0 = res.flag)) ∧
    (∀ e, irfs m ⟨sl, sk, force, lin⟩ st T = .error e ↔ simulate m lin none (· * ·) st es = .error e) := by
  rw [residuals_eq hes]
  have hfree : ∀ T', irfs m ⟨sl, sk, force, lin⟩ st T' = irfs m ⟨sl, sk, false, lin⟩ st T' := by
    intro T'
    rcases hf with rfl | hf
    · rfl
    · have hany : anyPeriod sl = false := by
        rw [anyPeriod, List.any_eq_false]
        intro s hs
        simp [hf s hs]
      unfold irfs
      have : ∀ n t0 (s : IrfState z p K), irfRun m ⟨sl, sk, force, lin⟩ t0 s n = irfRun m ⟨sl, sk, false, lin⟩ t0 s n := by
        intro n
        induction n with
        | zero => intro t0 s; rfl
        | succ n ih =>
          intro t0 s
          unfold irfRun
          have : irfStep m ⟨sl, sk, force, lin⟩ s t0 = irfStep m ⟨sl, sk, false, lin⟩ s t0 := by
            unfold irfStep
            simp only [hany, Bool.and_false, Bool.false_and]
          rw [this]
          cases irfStep m ⟨sl, sk, false, lin⟩ s t0 with
          | error e => rfl
          | ok s' => simp only [ih]
      exact this _ _ _
  have main : ∀ n t0 (s : IrfState z p K),
      (∀ xs, irfRun m ⟨sl, sk, false, lin⟩ t0 s n = .ok xs → ∃ res, simLoop m lin s.state ((List.range' t0 n).map (shkVec sl)) = .ok res ∧
        res.X = s.state :: xs.map (·.state) ∧ res.LK = xs.map (fun s => (s.l, s.k)) ∧
        ((xs.map (·.flag)).getLastD s.flag = s.flag ||| res.flag)) ∧
      (∀ e, irfRun m ⟨sl, sk, false, lin⟩ t0 s n = .error e → simLoop m lin s.state ((List.range' t0 n).map (shkVec sl)) = .error e) := by
    intro n
    induction n with
    | zero =>
      intro t0 s
      refine ⟨fun xs h => ?_, fun e h => by simp [irfRun] at h⟩
      simp only [irfRun, Except.ok.injEq] at h
      subst h
      exact ⟨_, rfl, rfl, rfl, by simp⟩
    | succ n ih =>
      intro t0 s
      unfold irfRun
      rw [irfStep_free hsk, List.range'_succ, List.map_cons]
      unfold simLoop
      cases hr : tFunc m s.state (shkVec sl t0) .none lin with
      | error e => exact ⟨fun xs h => (by cases h), fun e' h => (by cases h; rfl)⟩
      | ok r =>
        obtain ⟨h1, h2⟩ := ih (t0 + 1) ⟨r.state, r.l, r.k, s.flag ||| r.flag, s.mult⟩
        simp only
        constructor
        · intro xs h
          cases hx : irfRun m ⟨sl, sk, false, lin⟩ (t0 + 1) ⟨r.state, r.l, r.k, s.flag ||| r.flag, s.mult⟩ n with
          | error e => rw [hx] at h; cases h
          | ok rest =>
            rw [hx, Except.ok.injEq] at h
            subst h
            obtain ⟨res, g1, g2, g3, g4⟩ := h1 rest hx
            simp only at g1 g2 g3 g4
            refine ⟨⟨s.state :: res.X, (r.l, r.k) :: res.LK, r.flag ||| res.flag⟩, by rw [g1], ?_, ?_, ?_⟩
            · simp only [g2, List.map_cons]
            · simp only [g3, List.map_cons]
            · simp only [List.map_cons, List.getLastD_cons, g4, Nat.or_assoc]
        · intro e h
          cases hx : irfRun m ⟨sl, sk, false, lin⟩ (t0 + 1) ⟨r.state, r.l, r.k, s.flag ||| r.flag, s.mult⟩ n with
          | error e' =>
            rw [hx] at h
            rw [h2 e' hx]
            cases h
            rfl
          | ok rest => rw [hx] at h; cases h
  obtain ⟨h1, h2⟩ := main T 0 ⟨st, 0, 0, 0, false⟩
  rw [← List.range_eq_range'] at h1 h2
  constructor
  · intro xs h
    rw [hfree] at h
    obtain ⟨res, g1, g2, g3, g4⟩ := h1 xs h
    exact ⟨res, g1, g2, g3, by simpa using g4⟩
  · intro e
    rw [hfree]
    constructor
    · exact h2 e
    · intro hs
      cases hx : irfs m ⟨sl, sk, false, lin⟩ st T with
      | error e' =>
        have := h2 e' hx
        have := this.symm.trans hs
        cases this
        rfl
      | ok xs =>
        obtain ⟨res, g1, -⟩ := h1 xs hx
        have : simulate m lin none (· * ·) st ((List.range T).map (shkVec sl)) = .ok res := g1
        rw [this] at hs; cases hs

end Any

section NonVacuity
open Pydsge.Ex1

/-- **C108** refuted: with default arguments, from a state below the bound, announcing a shock for period 1 changes period 0: without
it the constrained variable is at or above its bound, with it below. -/
theorem C108_causal_refuted : ∃ mod, Succeeded Ex1.lay Ex1.orc 3 2 (serial 2) mod ∧
    ∃ s0 s0', Spec.SameUntil 1 ([] : List (ShockSpec (Fin 1) Rat)) [((0 : Fin 1), (1 : Rat), 1)] ∧
      irfs mod ⟨[], .bool false, forceDefault none (.bool false), false⟩ (fun _ => -4) 1 = .ok [s0] ∧
      irfs mod ⟨[((0 : Fin 1), (1 : Rat), 1)], .bool false, forceDefault none (.bool false), false⟩ (fun _ => -4) 1 = .ok [s0'] ∧
      Ex1.decl.xbar ≤ Ex1.lay.val s0.state (.inl Ex1.decl.cvar) ∧ Ex1.lay.val s0'.state (.inl Ex1.decl.cvar) < Ex1.decl.xbar := by
  obtain ⟨mod, h⟩ := ex1_succeeds 3 2
  obtain ⟨mod', h', s0', h1, -, h2⟩ := C67_irfs_respect_bound_refuted
  have hmod : mod' = mod := by
    have := h'.gen.symm.trans h.gen
    simpa using this
  subst hmod
  obtain ⟨r, h3, h4⟩ := C02_never_below_bound h' (by omega) (by show (inpB (-1)).fb0 (inpB (-1)).cvar ≠ 0; simp [yaml, Input.ofYaml, declB])
    (fun _ => -4) 0
  refine ⟨mod', h', ⟨r.state, r.l, r.k, 0 ||| r.flag, false⟩, s0', ?_, ?_, h1, h4, h2⟩
  · intro t ht
    have : t = 0 := by omega
    subst this
    intro u
    rw [shocksAt_iff, shocksAt_iff, show shkVec ([] : List (ShockSpec (Fin 1) Rat)) 0 = shkVec [((0 : Fin 1), (1 : Rat), 1)] 0 from by
      funext e; simp [shkVec]]
  · have e0 : shkVec ([] : List (ShockSpec (Fin 1) Rat)) 0 = 0 := rfl
    simp [irfs, irfRun, irfStep, anyPeriod, setKEff, tooLong, tFunc_bool, e0, h3]

/-- C107, C109: a run that binds in period 0, also as a simulation. -/
theorem C107_C109_hypotheses_met : ∃ mod, Succeeded Ex1.lay Ex1.orc 2 30 (serial 30) mod ∧
    ∃ xs s0, irfs mod ⟨[((0 : Fin 1), (-9/4 : Rat), 0)], .bool false, false, false⟩ 0 3 = .ok xs ∧ xs.length = 3 ∧ xs[0]? = some s0 ∧
      s0.k = 1 := by
  obtain ⟨mod, h⟩ := Ex1.succeeds (b := -1) 2 30 (Ex1.serial_perm 2 30)
  obtain ⟨r, g1, g2, g3, g4, -, -⟩ := Ex1.binding_run 2 30 (by omega) (by omega) h
  have e0 : shkVec [((0 : Fin 1), (-9/4 : Rat), (0 : Int))] 0 = fun _ => -9/4 := by
    funext e; rw [Subsingleton.elim e 0]; simp [shkVec]
  obtain ⟨xs, hxs⟩ := irfRun_exists (m := mod) (a := ⟨[((0 : Fin 1), (-9/4 : Rat), 0)], .bool false, false, false⟩) (fun _ _ => True)
    (fun t s _ => by
      obtain ⟨r, h1, -, -⟩ := tFunc_endo h (by omega) s.state (shkVec [((0 : Fin 1), (-9/4 : Rat), (0 : Int))] t) false
      exact ⟨_, by rw [irfStep_free (.inr rfl), h1], trivial⟩) 3 0 ⟨0, 0, 0, 0, false⟩ trivial
  obtain ⟨hl, hst⟩ := irfRun_steps hxs
  obtain ⟨s0, hs0⟩ : ∃ s0, xs[0]? = some s0 := ⟨_, List.getElem?_eq_getElem (by omega)⟩
  refine ⟨mod, h, xs, s0, hxs, hl, hs0, ?_⟩
  have := hst 0 ⟨0, 0, 0, 0, false⟩ s0 rfl hs0
  rw [irfStep_free (.inr rfl), Nat.zero_add, e0] at this
  simp only [g1, Except.ok.injEq] at this
  rw [← this]
  exact g3

end NonVacuity
end Pydsge
