import Verif.Props.Sim
import Verif.Props.Irfs

/-!
# C80, C81: the flag that irfs returns; observables of a solved model
-/

set_option autoImplicit false
set_option linter.unusedSectionVars false
set_option linter.unusedSimpArgs false

namespace Pydsge

open Matrix Pydsge.Engine Pydsge.Spec Pydsge.Tools Pydsge.GenSys

section
variable {z ε p o K : Type} [Fintype z] [Fintype ε] [Fintype p] [Fintype o] [DecidableEq z] [DecidableEq ε] [DecidableEq p]
  [Field K] [LinearOrder K] [IsStrictOrderedRing K]

namespace Spec

/-- `rs` are the transitions behind the responses `xs`: in each period, `t_func` with some imposed equilibrium (or none) takes the state of the
previous period and the shocks of the period to the response. -/
structure Transitions (m : Model z ε p o K) (sl : List (ShockSpec ε K)) (linear : Bool) (st : p ⊕ z → K) (xs : List (IrfState z p K))
    (rs : List (Step z p K)) : Prop where
  length : rs.length = xs.length
  each : ∀ (i : Nat) r, rs[i]? = some r → ∃ x0 sk, (st :: xs.map IrfState.state)[i]? = some x0 ∧
    ∃ u, ShocksAt sl i u ∧ tFunc m x0 u sk linear = .ok r
  same : ∀ (i : Nat) r x, rs[i]? = some r → xs[i]? = some x → x.state = r.state ∧ x.l = r.l ∧ x.k = r.k

end Spec

theorem irfStep_flag {m : Model z ε p o K} {a : IrfArgs z ε p K} {s s' : IrfState z p K} {t : Nat} (h : irfStep m a s t = .ok s') :
    ∃ sk r, tFunc m s.state (shkVec a.shocks t) sk a.linear = .ok r ∧ s'.state = r.state ∧ s'.l = r.l ∧ s'.k = r.k ∧ s'.flag = s.flag ||| r.flag := by
  unfold irfStep at h
  dsimp only at h
  generalize (if (a.force && !anyNonzero (shkVec a.shocks t) && anyPeriod a.shocks) = true then _ else _ : Except PyErr (SetK × Bool)) = ch at h
  rcases ch with err | ⟨eff, mult⟩
  · simp at h
  · simp only at h
    split_ifs at h with h1
    cases hr : tFunc m s.state (shkVec a.shocks t) eff a.linear with
    | error err => simp [hr] at h
    | ok r =>
      simp only [hr, Except.ok.injEq] at h
      subst h
      exact ⟨eff, r, hr, rfl, rfl, rfl, rfl⟩

theorem irfRun_flag {m : Model z ε p o K} {a : IrfArgs z ε p K} : ∀ (n t0 : Nat) (s : IrfState z p K) (xs : List (IrfState z p K)),
    irfRun m a t0 s n = .ok xs → xs.length = n ∧ ∃ rs : List (Step z p K), rs.length = xs.length ∧
      (∀ (i : Nat) r, rs[i]? = some r → ∃ x0 sk, (s.state :: xs.map IrfState.state)[i]? = some x0 ∧
        tFunc m x0 (shkVec a.shocks (t0 + i)) sk a.linear = .ok r) ∧
      (∀ (i : Nat) r x, rs[i]? = some r → xs[i]? = some x → x.state = r.state ∧ x.l = r.l ∧ x.k = r.k) ∧
      (∀ (i : Nat) x, xs[i]? = some x → (x.flag ≠ 0 ↔ s.flag ≠ 0 ∨ ∃ j ≤ i, ∃ r, rs[j]? = some r ∧ r.flag ≠ 0))
  | 0, _, _, xs, h => by
    simp only [irfRun, Except.ok.injEq] at h
    subst h
    exact ⟨rfl, [], rfl, by simp, by simp, by simp⟩
  | n + 1, t0, s, xs, h => by
    unfold irfRun at h
    cases hs : irfStep m a s t0 with
    | error e => simp [hs] at h
    | ok s' =>
      simp only [hs] at h
      cases hr : irfRun m a (t0 + 1) s' n with
      | error e => simp [hr] at h
      | ok rest =>
        simp only [hr, Except.ok.injEq] at h
        subst h
        obtain ⟨hlen, rs, h1, h2, h3, h4⟩ := irfRun_flag n (t0+1) s' rest hr
        obtain ⟨sk, r, g1, g2, g3, g4, g5⟩ := irfStep_flag hs
        refine ⟨by simp [hlen], r :: rs, by simp [h1], ?_, ?_, ?_⟩
        · intro i r' hi
          cases i with
          | zero =>
            simp only [List.getElem?_cons_zero, Option.some.injEq] at hi
            subst hi
            exact ⟨s.state, sk, rfl, g1⟩
          | succ i =>
            obtain ⟨x0, sk', a1, a2⟩ := h2 i r' (by simpa using hi)
            exact ⟨x0, sk', by simpa using a1, by rw [show t0 + (i + 1) = t0 + 1 + i by omega]; exact a2⟩
        · intro i r' x hi hx
          cases i with
          | zero =>
            simp only [List.getElem?_cons_zero, Option.some.injEq] at hi hx
            subst hi hx
            exact ⟨g2, g3, g4⟩
          | succ i => exact h3 i r' x (by simpa using hi) (by simpa using hx)
        · intro i x hx
          cases i with
          | zero =>
            simp only [List.getElem?_cons_zero, Option.some.injEq] at hx
            subst hx
            rw [g5, or_ne_zero]
            constructor
            · rintro (h | h)
              · exact .inl h
              · exact .inr ⟨0, le_rfl, r, rfl, h⟩
            · rintro (h | ⟨j, hj, r', hr', hf⟩)
              · exact .inl h
              · obtain rfl : j = 0 := by omega
                simp only [List.getElem?_cons_zero, Option.some.injEq] at hr'
                subst hr'
                exact .inr hf
          | succ i =>
            rw [h4 i x (by simpa using hx), g5, or_ne_zero]
            constructor
            · rintro ((h | h) | ⟨j, hj, r', hr', hf⟩)
              · exact .inl h
              · exact .inr ⟨0, by omega, r, rfl, h⟩
              · exact .inr ⟨j + 1, by omega, r', by simpa using hr', hf⟩
            · rintro (h | ⟨j, hj, r', hr', hf⟩)
              · exact .inl (.inl h)
              · cases j with
                | zero =>
                  simp only [List.getElem?_cons_zero, Option.some.injEq] at hr'
                  subst hr'
                  exact .inl (.inr hf)
                | succ j => exact .inr ⟨j, by omega, r', by simpa using hr', hf⟩

/-- **C80.** Whenever `irfs` returns, there are as many responses as periods, each response is a transition from the one before with the shocks of
its period, and the flag (of the last period, which is the one returned) is nonzero if and only if the flag of some transition was. -/
theorem C80_flag {m : Model z ε p o K} {a : IrfArgs z ε p K} {st : p ⊕ z → K} {T : Nat} {xs : List (IrfState z p K)}
    (h : irfs m a st T = .ok xs) : xs.length = T ∧ ∃ rs, Spec.Transitions m a.shocks a.linear st xs rs ∧
      ∀ x, xs.getLast? = some x → (x.flag ≠ 0 ↔ ∃ r ∈ rs, r.flag ≠ 0) := by
  obtain ⟨hlen, rs, h1, h2, h3, h4⟩ := irfRun_flag T 0 _ xs h
  refine ⟨hlen, rs, ⟨h1, fun i r hr => ?_, h3⟩, ?_⟩
  · obtain ⟨x0, sk, a1, a2⟩ := h2 i r hr
    rw [Nat.zero_add] at a2
    exact ⟨x0, sk, a1, _, shocksAt_shkVec _ _, a2⟩
  · intro x hx
    rw [List.getLast?_eq_getElem?] at hx
    rw [h4 _ x hx]
    constructor
    · rintro (h | ⟨j, _, r, hr, hf⟩)
      · simp at h
      · exact ⟨r, List.mem_of_getElem? hr, hf⟩
    · rintro ⟨r, hr, hf⟩
      obtain ⟨j, hj⟩ := List.getElem?_of_mem hr
      have : j < rs.length := by
        by_contra hn
        rw [List.getElem?_eq_none (by omega)] at hj
        cases hj
      exact .inr ⟨j, by omega, r, hj, hf⟩

/-- **C66 (impulse responses, partial).** If no two entries of the list have the same name and period, the response in each period is a transition from the
response before under the sums of the sizes given for the period. -/
theorem C66_irfs_partial {m : Model z ε p o K} {a : IrfArgs z ε p K} (hn : (a.shocks.map (fun s => (s.1, s.2.2))).Nodup) {st : p ⊕ z → K}
    {T : Nat} {xs : List (IrfState z p K)} (h : irfs m a st T = .ok xs) (i : Nat) (x : IrfState z p K) (hx : xs[i]? = some x) :
    ∃ x0 sk r, (st :: xs.map IrfState.state)[i]? = some x0 ∧
      tFunc m x0 (fun e => (a.shocks.map (fun s => if s.1 = e ∧ s.2.2 = (i : Int) then s.2.1 else 0)).sum) sk a.linear = .ok r ∧
      x.state = r.state ∧ x.l = r.l ∧ x.k = r.k := by
  obtain ⟨hlen, rs, h1, h2, h3, h4⟩ := irfRun_flag T 0 _ xs h
  have hi : i < rs.length := by
    rw [h1]
    by_contra hc
    rw [List.getElem?_eq_none (by omega)] at hx
    cases hx
  obtain ⟨x0, sk, a1, a2⟩ := h2 i _ (List.getElem?_eq_getElem hi)
  refine ⟨x0, sk, _, a1, ?_, h3 i _ x (List.getElem?_eq_getElem hi) hx⟩
  rw [Nat.zero_add, show shkVec a.shocks i = _ from funext fun e => C66_shocks_add_up_partial a.shocks hn i e] at a2
  exact a2

end

section
variable {E ν H z ε p o K : Type} [Fintype E] [Fintype ν] [Fintype H] [Fintype z] [Fintype ε] [Fintype p] [Fintype o] [DecidableEq E]
  [DecidableEq ν] [DecidableEq H] [DecidableEq z] [DecidableEq ε] [DecidableEq p] [Field K] [LinearOrder K] [IsStrictOrderedRing K]
variable {tol : K} {m : Input E ν ε o K} [DecidablePred (inall tol m)] {lay : Layout tol m H z p}
  {orc : Oracle (Rows E H ε) (z ⊕ ε) p K} {lMax kMax : Nat} {sched : Nat → List Nat} {mod : Model z ε p o K}

/-- **C81.** The observables that a solved model reports for a state are the declared linear functions of the values of the declared variables. -/
theorem C81_observables (h : Succeeded lay orc lMax kMax sched mod) (st : p ⊕ z → K) (i : o) :
    oFunc mod st i = (∑ v, m.ZZ0 i v * lay.val st (.inl v)) + m.ZZ1 i := by
  obtain ⟨c, hm⟩ := genSys_ok h.perm h.gen
  unfold oFunc
  rw [hm.hx]
  have e1 : ∀ w : ν ⊕ H, (match w with | .inl v => m.ZZ0 i v | .inr _ => 0) = Sum.elim (m.ZZ0 i) (fun _ => 0) w := by
    intro w
    cases w <;> rfl
  have ep : ((fun j => st (.inl j)) ᵥ* (GenSys.hx lay).1ᵀ) i = ∑ j, Sum.elim (m.ZZ0 i) (fun _ => 0) (lay.pi j) * st (.inl j) := by
    rw [vecMul_transpose]
    unfold mulVec dotProduct
    refine Finset.sum_congr rfl fun j _ => ?_
    simp only [← e1]
    rfl
  have ez : ((fun j => st (.inr j)) ᵥ* (GenSys.hx lay).2.1ᵀ) i = ∑ j, Sum.elim (m.ZZ0 i) (fun _ => 0) (lay.zi j) * st (.inr j) := by
    rw [vecMul_transpose]
    unfold mulVec dotProduct
    refine Finset.sum_congr rfl fun j _ => ?_
    simp only [← e1]
    rfl
  simp only [Pi.add_apply, ep, ez]
  congr 1
  have key : ∀ {ι : Type} [Fintype ι] (f : ι → ν ⊕ H) (x : ι → K),
      ∑ j, Sum.elim (m.ZZ0 i) (fun _ => 0) (f j) * x j = ∑ v, m.ZZ0 i v * ∑ j, if f j = .inl v then x j else 0 := by
    intro ι _ f x
    simp only [Finset.mul_sum]
    rw [Finset.sum_comm]
    refine Finset.sum_congr rfl fun j _ => ?_
    cases hf : f j with
    | inl w =>
      simp only [Sum.inl.injEq, Sum.elim_inl]
      rw [Finset.sum_eq_single w]
      · simp
      · intro b _ hb
        rw [if_neg (fun h => hb h.symm), mul_zero]
      · intro hn
        exact absurd (Finset.mem_univ _) hn
    | inr w => simp
  unfold Layout.val
  rw [key lay.pi, key lay.zi, ← Finset.sum_add_distrib]
  refine Finset.sum_congr rfl fun v _ => ?_
  ring

end

/-- Non-vacuity of C80 and C81: a response of the example model in which no equilibrium is found, with flag 2. -/
example : ∃ mod xs x, Succeeded Ex1.lay Ex1.orc 3 1 (serial 1) mod ∧
    irfs mod ⟨[((0 : Fin 1), (-9 : Rat), 0)], .bool false, true, false⟩ 0 1 = .ok xs ∧ xs.getLast? = some x ∧ x.flag = 2 := by
  obtain ⟨mod, h⟩ := ex1_succeeds 3 1
  have e0 : shkVec [((0 : Fin 1), (-9 : Rat), (0 : Int))] 0 0 = -9 := by simp [shkVec]
  obtain ⟨r0, a1, a2, a3, a4, a5⟩ := Ex1.low_run 3 (by omega) h 0 (shkVec [((0 : Fin 1), (-9 : Rat), (0 : Int))] 0)
    (by rw [e0]; norm_num)
  refine ⟨mod, [⟨r0.state, r0.l, r0.k, 0 ||| r0.flag, false⟩], _, h, ?_, rfl, ?_⟩
  · simp [irfs, irfRun, irfStep, anyPeriod, setKEff, tooLong, tFunc_bool, a1]
  · simp [a4]

end Pydsge
