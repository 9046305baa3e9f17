import Verif.Props.MultFlagEx
import Verif.Props.Shift

/-!
# When `force_init_equil` makes a difference (C18, C67, C108, C157)

tools.py:256-329. The violations that `C18_spell_continued_refuted`, `C67_irfs_respect_bound_refuted` and `C108_causal_refuted` show have one
reason: a spell is continued that the search would not give. `irfs` announces this case as a multiplicity, so without the message the properties
hold.
-/

set_option autoImplicit false
set_option linter.unusedSectionVars false
set_option linter.unusedSimpArgs false

namespace Pydsge

open Matrix Pydsge.Engine Pydsge.Spec Pydsge.Tools Pydsge.GenSys

variable {E H ν ε o z p K : Type} [Fintype E] [Fintype H] [Fintype ν] [Fintype ε] [Fintype z] [Fintype p] [Fintype o] [DecidableEq E]
  [DecidableEq H] [DecidableEq ν] [DecidableEq ε] [DecidableEq z] [DecidableEq p] [Field K] [LinearOrder K] [IsStrictOrderedRing K]
variable {tol : K} {m : Input E ν ε o K} [DecidablePred (inall tol m)] {lay : Layout tol m H z p}
  {orc : Oracle (Rows E H ε) (z ⊕ ε) p K} {lMax kMax : Nat} {sched : Nat → List Nat} {mod : Model z ε p o K}

/-- **C18**: without a shock outside period 0, `force_init_equil` has no effect at all, for every horizon and whatever is imposed. -/
theorem C18_ignored (mod : Model z ε p o K) {sl : List (ShockSpec ε K)} (hper : ∀ s ∈ sl, s.2.2 = 0) (sk : SetK) (lin : Bool)
    (st : p ⊕ z → K) (T : Nat) : irfs mod ⟨sl, sk, true, lin⟩ st T = irfs mod ⟨sl, sk, false, lin⟩ st T := by
  have hp : anyPeriod sl = false := by
    rw [anyPeriod, List.any_eq_false]
    intro s hs
    simp [hper s hs]
  have hstep : ∀ s t, irfStep mod ⟨sl, sk, true, lin⟩ s t = irfStep mod ⟨sl, sk, false, lin⟩ s t := by
    intro s t
    unfold irfStep
    simp only [hp, Bool.and_false, Bool.false_and]
  have : ∀ T t s, irfRun mod ⟨sl, sk, true, lin⟩ t s T = irfRun mod ⟨sl, sk, false, lin⟩ t s T := by
    intro T
    induction T with
    | zero => intro t s; rfl
    | succ T ih =>
      intro t s
      rw [irfRun, irfRun, hstep]
      cases irfStep mod ⟨sl, sk, false, lin⟩ s t with
      | error e => rfl
      | ok s' => simp only [ih]
  exact this T 0 _

/-- **C67 (where the bound can be violated)**: with `force_init_equil`, a state below the bound occurs only in a period without a shock in which
the search gives another spell than the one that is continued. -/
theorem C67_only_if (h : Succeeded lay orc lMax kMax sched mod) (hk1 : 1 ≤ kMax) (hfb : m.fb0 m.cvar ≠ 0) {sl : List (ShockSpec ε K)} {sk : SetK}
    (hsk : sk = .none ∨ sk = .bool false) {st : p ⊕ z → K} {T : Nat} {xs : List (IrfState z p K)}
    (hx : irfs mod ⟨sl, sk, true, false⟩ st T = .ok xs) (i : Nat) (s' : IrfState z p K) (hs' : xs[i]? = some s')
    (hb : lay.val s'.state (.inl m.cvar) < m.xbar) : Spec.SpellsDiffer mod sl st xs i := by
  obtain ⟨hlen, hst⟩ := irfRun_steps hx
  have hi := (List.getElem?_eq_some_iff.1 hs').1
  obtain ⟨s, hs⟩ : ∃ s, ((⟨st, 0, 0, 0, false⟩ : IrfState z p K) :: xs)[i]? = some s :=
    ⟨_, List.getElem?_eq_getElem (by simp; omega)⟩
  have h1 := hst i s s' hs hs'
  rw [Nat.zero_add] at h1
  obtain ⟨hl, hk⟩ := irfRun_inside h hk1 hsk hx i s hs
  obtain ⟨r, hr, hr2⟩ := C02_never_below_bound h hk1 hfb s.state (shkVec sl i)
  by_cases hc : shkVec sl i = 0 ∧ ∃ s ∈ sl, s.2.2 ≠ 0
  · obtain ⟨en, r2, g1, g2, -, g4⟩ := irfStep_continue h hk1 (sk := sk) hc.2 hc.1 hl hk
    rw [h1] at g4
    cases g4
    refine ⟨hc.2, (shocksAt_iff _ _ _).2 hc.1.symm, s, en, hs, g1, fun e => ?_⟩
    obtain ⟨r', b1, b2, -, -⟩ := C14_impose_found_equilibrium h hk1 _ _ en g1
    rw [← e] at g2
    have e1 : r2 = r' := Except.ok.inj (g2.symm.trans b1)
    rw [hc.1, g1] at hr
    cases hr
    rw [e1, b2] at hb
    exact absurd hb (not_lt.2 hr2)
  · rw [irfStep_search hsk (by
      by_cases h0 : shkVec sl i = 0
      · right
        intro s hs
        by_contra hn
        exact hc ⟨h0, s, hs, hn⟩
      · exact .inl h0), irfStep_free hsk, hr] at h1
    cases h1
    exact absurd hb (not_lt.2 hr2)

/-- **C67**: with `force_init_equil`, every state respects the bound up to the first period in which `irfs` reports a multiplicity. -/
theorem C67_silent (h : Succeeded lay orc lMax kMax sched mod) (hk1 : 1 ≤ kMax) (hfb : m.fb0 m.cvar ≠ 0) {sl : List (ShockSpec ε K)} {sk : SetK}
    (hsk : sk = .none ∨ sk = .bool false) {st : p ⊕ z → K} {T : Nat} {xs : List (IrfState z p K)}
    (hx : irfs mod ⟨sl, sk, true, false⟩ st T = .ok xs) (i : Nat) (s' : IrfState z p K) (hs' : xs[i]? = some s') (hq : s'.mult = false) :
    m.xbar ≤ lay.val s'.state (.inl m.cvar) := by
  by_contra hb
  have := (C175_reported_iff h hk1 hsk hx i s' hs').2 ⟨i, le_refl i, C67_only_if h hk1 hfb hsk hx i s' hs' (not_le.1 hb)⟩
  rw [hq] at this
  cases this

/-- **C108**: shocks of later periods have no influence on states and spells if neither response comes with the message about multiplicities. -/
theorem C108_silent (h : Succeeded lay orc lMax kMax sched mod) (hk1 : 1 ≤ kMax) {sl sl' : List (ShockSpec ε K)} {sk : SetK}
    (hsk : sk = .none ∨ sk = .bool false) {st : p ⊕ z → K} {T : Nat} (hs : Spec.SameUntil T sl sl') {xs xs' : List (IrfState z p K)}
    (hx : irfs mod ⟨sl, sk, true, false⟩ st T = .ok xs) (hx' : irfs mod ⟨sl', sk, true, false⟩ st T = .ok xs')
    (hq : ∀ x, xs.getLast? = some x → x.mult = false) (hq' : ∀ x, xs'.getLast? = some x → x.mult = false) :
    List.Forall₂ (fun x y => x.state = y.state ∧ x.l = y.l ∧ x.k = y.k) xs xs' := by
  obtain ⟨ys, h1, h2⟩ := C175_silent h hk1 hsk hx hq
  obtain ⟨ys', h1', h2'⟩ := C175_silent h hk1 hsk hx' hq'
  rw [C108_causal_partial mod sk false false st T hs (.inl rfl), h1'] at h1
  cases h1
  rw [List.forall₂_iff_get] at h2 h2' ⊢
  obtain ⟨e, g⟩ := h2
  obtain ⟨e', g'⟩ := h2'
  refine ⟨e.trans e'.symm, fun i a b => ?_⟩
  obtain ⟨a1, a2, a3, -⟩ := g i a (by omega)
  obtain ⟨b1, b2, b3, -⟩ := g' i b (by omega)
  exact ⟨a1.trans b1.symm, a2.trans b2.symm, a3.trans b3.symm⟩

/-- **C157**: if the response to the delayed shocks comes without the message about multiplicities, it is the response to the shocks themselves,
after `D` periods in the steady state. -/
theorem C157_silent (h : Succeeded lay orc lMax kMax sched mod) (hk1 : 1 ≤ kMax) (hx0 : m.xbar < 0) {sl : List (ShockSpec ε K)}
    (hper : ∀ s ∈ sl, s.2.2 = 0) {sk : SetK} (hsk : sk = .none ∨ sk = .bool false) (D T : Nat) {xs ys : List (IrfState z p K)}
    (hx : irfs mod ⟨sl, sk, true, false⟩ 0 T = .ok xs) (hy : irfs mod ⟨Spec.delayed D sl, sk, true, false⟩ 0 (D + T) = .ok ys)
    (hq : ∀ y, ys.getLast? = some y → y.mult = false) :
    List.Forall₂ (fun y x => y.state = x.state ∧ y.l = x.l ∧ y.k = x.k) ys (List.replicate D ⟨0, 0, 0, 0, false⟩ ++ xs) := by
  obtain ⟨ys', h1, h2⟩ := C175_silent h hk1 hsk hy hq
  rw [C157_delay_partial h hx0 sl (fun s hs => by rw [hper s hs]) hsk false false (.inl rfl) D T, ← C18_ignored mod hper sk false 0 T, hx] at h1
  cases h1
  exact h2.imp fun _ _ g => ⟨g.1, g.2.1, g.2.2.1⟩

/-- **C67, C108, C157**: the hypotheses are met: a response with a binding constraint to a shock in period 1, over any horizon. -/
theorem C67_silent_met (lMax kMax : Nat) (hk : 2 ≤ kMax) (hl1 : 1 ≤ lMax) (hL : lMax + 1 ≤ 999) : ∃ mod,
    Succeeded Ex9.lay Ex9.orc lMax kMax (serial kMax) mod ∧
    ∀ T, ∃ xs ys, irfs mod ⟨Spec.delayed 1 [((0 : Fin 1), (-7 : Rat), (0 : Int))], .none, true, false⟩ 0 (1 + T) = .ok xs ∧
      irfs mod ⟨[((0 : Fin 1), (-7 : Rat), (0 : Int))], .none, true, false⟩ 0 T = .ok ys ∧
      (∀ s ∈ xs, s.mult = false ∧ Ex9.decl.xbar ≤ Ex9.lay.val s.state (.inl Ex9.decl.cvar)) ∧
      List.Forall₂ (fun y x => y.state = x.state ∧ y.l = x.l ∧ y.k = x.k) xs (⟨0, 0, 0, 0, false⟩ :: ys) := by
  obtain ⟨mod, h, -, hT⟩ := C175_hypotheses_met lMax kMax hk hl1 hL
  have hfb : (yaml Ex9.decl Ex9.Z0 Ex9.Z1).fb0 (yaml Ex9.decl Ex9.Z0 Ex9.Z1).cvar ≠ 0 := by decide +kernel
  refine ⟨mod, h, fun T => ?_⟩
  obtain ⟨xs, h1, h2, h3⟩ := hT (1 + T)
  have e : Spec.delayed 1 [((0 : Fin 1), (-7 : Rat), (0 : Int))] = [((0 : Fin 1), (-7 : Rat), ((1 : Nat) : Int))] := by
    simp [Spec.delayed]
  obtain ⟨ys, hy, -, -⟩ := C67_irfs_respect_bound_partial h (by omega) hfb (sk := .none) (.inl rfl)
    [((0 : Fin 1), (-7 : Rat), (0 : Int))] (force := true) (.inr (by simp)) 0 T
  rw [← e] at h1
  have hm : ∀ s ∈ xs, s.mult = false := fun s hs => by
    obtain ⟨i, hi⟩ := List.getElem?_of_mem hs
    exact h3 i s hi
  refine ⟨xs, ys, h1, hy, fun s hs => ⟨hm s hs, ?_⟩, ?_⟩
  · obtain ⟨i, hi⟩ := List.getElem?_of_mem hs
    exact C67_silent h (by omega) hfb (.inl rfl) h1 i s hi (hm s hs)
  · exact C157_silent h (by omega) (by decide +kernel) (by simp) (.inl rfl) 1 T hy h1
      (fun y hy => hm y (List.mem_of_getLast? hy))

end Pydsge
