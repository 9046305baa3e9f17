import Verif.Props.TimeConsUnique
import Verif.Props.Edge
import Verif.Props.Irfs

/-!
# C175: the message about multiple equilibria
-/

set_option autoImplicit false
set_option linter.unusedSectionVars false
set_option linter.unusedSimpArgs false

namespace Pydsge

open Matrix Pydsge.Engine Pydsge.Spec Pydsge.Tools Pydsge.GenSys

section Runs

variable {E H ν ε o z p K : Type} [Fintype E] [Fintype H] [Fintype ν] [Fintype ε] [Fintype z] [Fintype p] [Fintype o] [DecidableEq E]
  [DecidableEq H] [DecidableEq ν] [DecidableEq ε] [DecidableEq z] [DecidableEq p] [Field K] [LinearOrder K] [IsStrictOrderedRing K]
variable {tol : K} {m : Input E ν ε o K} [DecidablePred (inall tol m)] {lay : Layout tol m H z p}
  {orc : Oracle (Rows E H ε) (z ⊕ ε) p K} {lMax kMax : Nat} {sched : Nat → List Nat} {mod : Model z ε p o K}

/-- A period in which the spell is continued. -/
theorem irfStep_continue (h : Succeeded lay orc lMax kMax sched mod) (hk1 : 1 ≤ kMax) {sl : List (ShockSpec ε K)} {sk : SetK}
    (hper : ∃ s ∈ sl, s.2.2 ≠ 0) {t : Nat} (h0 : shkVec sl t = 0) {s : IrfState z p K} (hl : s.l ≤ lMax) (hk : s.k ≤ kMax) :
    ∃ en r, tFunc mod s.state 0 .none false = .ok en ∧
      tFunc mod s.state 0 (.pair ((elapsed s.l s.k 1).1 : Int) ((elapsed s.l s.k 1).2 : Int)) false = .ok r ∧
      (r.l, r.k) = elapsed s.l s.k 1 ∧
      irfStep mod ⟨sl, sk, true, false⟩ s t =
        .ok ⟨r.state, r.l, r.k, s.flag ||| r.flag, s.mult || decide ((en.l, en.k) ≠ elapsed s.l s.k 1)⟩ := by
  obtain ⟨c, hm⟩ := genSys_ok h.perm h.gen
  have hlks := hm.lks
  have hp : anyPeriod sl = true := by
    obtain ⟨s, h1, h2⟩ := hper
    exact List.any_eq_true.2 ⟨s, h1, by simp [h2]⟩
  obtain ⟨en, hen, -, -⟩ := tFunc_endo h hk1 s.state (shkVec sl t) false
  obtain ⟨e1, e2⟩ := elapsed_le hl hk 1
  obtain ⟨r, hr, hr1, -⟩ := tFunc_imposed h s.state (shkVec sl t) false e1 e2
  obtain ⟨hr1, hr2⟩ := hr1 rfl
  have hlong : tooLong mod.lks (.pair ((elapsed s.l s.k 1).1 : Int) ((elapsed s.l s.k 1).2 : Int)) = false := by
    simp only [tooLong, hlks, decide_eq_false_iff_not]; omega
  refine ⟨en, r, by rw [← h0, hen], by rw [← h0, hr], by rw [hr1, hr2], ?_⟩
  unfold irfStep
  simp only [hp, Bool.true_and, Bool.and_true]
  rw [if_pos (by rw [anyNonzero_false.2 h0]; rfl), hen]
  simp only [continued_eq, hlong, hr, Bool.false_eq_true, if_false]
  congr 3
  rw [decide_eq_decide, not_iff_not]
  constructor
  · intro g
    simp only [SetK.pair.injEq, Nat.cast_inj] at g
    exact Prod.ext g.1.symm g.2.symm
  · intro g
    rw [← g]

/-- A period in which the equilibrium is searched for. -/
theorem irfStep_search {sl : List (ShockSpec ε K)} {sk : SetK} (hsk : sk = .none ∨ sk = .bool false)
    {t : Nat} (h0 : shkVec sl t ≠ 0 ∨ ∀ s ∈ sl, s.2.2 = 0) (s : IrfState z p K) :
    irfStep mod ⟨sl, sk, true, false⟩ s t = irfStep mod ⟨sl, sk, false, false⟩ s t := by
  have hf : (!anyNonzero (shkVec sl t) && anyPeriod sl) = false := by
    rcases h0 with h0 | h0
    · have : anyNonzero (shkVec sl t) = true := by
        by_contra hc
        exact h0 (anyNonzero_false.1 (by simpa using hc))
      rw [this]; rfl
    · have : anyPeriod sl = false := by
        rw [anyPeriod, List.any_eq_false]
        intro s hs
        simp [h0 s hs]
      rw [this, Bool.and_false]
  unfold irfStep
  simp only [Bool.true_and, Bool.false_and, hf, Bool.false_eq_true, if_false]

/-- In both kinds of periods the spell stays inside the tables. -/
theorem irfStep_inside (h : Succeeded lay orc lMax kMax sched mod) (hk1 : 1 ≤ kMax) {sl : List (ShockSpec ε K)} {sk : SetK}
    (hsk : sk = .none ∨ sk = .bool false) {t : Nat} {s s' : IrfState z p K} (hl : s.l ≤ lMax) (hk : s.k ≤ kMax)
    (hs : irfStep mod ⟨sl, sk, true, false⟩ s t = .ok s') : s'.l ≤ lMax ∧ s'.k ≤ kMax := by
  by_cases hc : shkVec sl t = 0 ∧ ∃ s ∈ sl, s.2.2 ≠ 0
  · obtain ⟨en, r, -, -, g3, g4⟩ := irfStep_continue h hk1 (sk := sk) hc.2 hc.1 hl hk
    rw [hs] at g4
    cases g4
    have := elapsed_le hl hk 1
    rw [← g3] at this
    exact this
  · rw [irfStep_search hsk (by
      by_cases h0 : shkVec sl t = 0
      · right
        intro s hs
        by_contra hn
        exact hc ⟨h0, s, hs, hn⟩
      · exact .inl h0), irfStep_free hsk] at hs
    obtain ⟨en, hen, h1, h2⟩ := tFunc_endo h hk1 s.state (shkVec sl t) false
    rw [hen] at hs
    cases hs
    exact ⟨h1, h2⟩

theorem irfRun_inside (h : Succeeded lay orc lMax kMax sched mod) (hk1 : 1 ≤ kMax) {sl : List (ShockSpec ε K)} {sk : SetK}
    (hsk : sk = .none ∨ sk = .bool false) {st : p ⊕ z → K} {T : Nat} {xs : List (IrfState z p K)}
    (hx : irfs mod ⟨sl, sk, true, false⟩ st T = .ok xs) (i : Nat) (s : IrfState z p K)
    (hs : ((⟨st, 0, 0, 0, false⟩ : IrfState z p K) :: xs)[i]? = some s) : s.l ≤ lMax ∧ s.k ≤ kMax := by
  obtain ⟨hlen, hst⟩ := irfRun_steps hx
  induction i generalizing s with
  | zero =>
    simp only [List.getElem?_cons_zero, Option.some.injEq] at hs
    subst hs
    exact ⟨Nat.zero_le _, Nat.zero_le _⟩
  | succ i ih =>
    simp only [List.getElem?_cons_succ] at hs
    have hi : i < xs.length := (List.getElem?_eq_some_iff.1 hs).1
    obtain ⟨s0, hs0⟩ : ∃ s, ((⟨st, 0, 0, 0, false⟩ : IrfState z p K) :: xs)[i]? = some s :=
      ⟨_, List.getElem?_eq_getElem (by simp; omega)⟩
    obtain ⟨h1, h2⟩ := ih s0 hs0
    exact irfStep_inside h hk1 hsk h1 h2 (hst i s0 s hs0 hs)

/-- In the period `i` of the impulse response `xs` there is no shock, some other period has one, and the search for an equilibrium gives another
spell than the one that is continued. -/
def Spec.SpellsDiffer (mod : Model z ε p o K) (sl : List (ShockSpec ε K)) (st : p ⊕ z → K) (xs : List (IrfState z p K)) (i : Nat) : Prop :=
  (∃ s ∈ sl, s.2.2 ≠ 0) ∧ Spec.ShocksAt sl i 0 ∧ ∃ s en, ((⟨st, 0, 0, 0, false⟩ : IrfState z p K) :: xs)[i]? = some s ∧
    tFunc mod s.state 0 .none false = .ok en ∧ (en.l, en.k) ≠ elapsed s.l s.k 1

/-- **C175 (what is reported).** `irfs` (with `force_init_equil`) reports multiplicities after the period `i` if and only if in one of the periods
up to `i` without a shock the search gives another spell than the one that is continued. -/
theorem C175_reported_iff (h : Succeeded lay orc lMax kMax sched mod) (hk1 : 1 ≤ kMax) {sl : List (ShockSpec ε K)} {sk : SetK}
    (hsk : sk = .none ∨ sk = .bool false) {st : p ⊕ z → K} {T : Nat} {xs : List (IrfState z p K)}
    (hx : irfs mod ⟨sl, sk, true, false⟩ st T = .ok xs) (i : Nat) (s' : IrfState z p K) (hs' : xs[i]? = some s') :
    s'.mult = true ↔ ∃ j ≤ i, Spec.SpellsDiffer mod sl st xs j := by
  obtain ⟨hlen, hst⟩ := irfRun_steps hx
  have step : ∀ i s s', ((⟨st, 0, 0, 0, false⟩ : IrfState z p K) :: xs)[i]? = some s → xs[i]? = some s' →
      (s'.mult = true ↔ s.mult = true ∨ Spec.SpellsDiffer mod sl st xs i) := by
    intro i s s' hs hs'
    have h1 := hst i s s' hs hs'
    rw [Nat.zero_add] at h1
    obtain ⟨hl, hk⟩ := irfRun_inside h hk1 hsk hx i s hs
    by_cases hc : shkVec sl i = 0 ∧ ∃ s ∈ sl, s.2.2 ≠ 0
    · obtain ⟨en, r, g1, -, -, g4⟩ := irfStep_continue h hk1 (sk := sk) hc.2 hc.1 hl hk
      rw [h1] at g4
      cases g4
      rw [Bool.or_eq_true, decide_eq_true_eq]
      refine or_congr_right ⟨fun g => ⟨hc.2, (shocksAt_iff _ _ _).2 hc.1.symm, s, en, hs, g1, g⟩, ?_⟩
      rintro ⟨-, -, s2, en2, a1, a2, a3⟩
      rw [hs] at a1
      cases a1
      rw [g1] at a2
      cases a2
      exact a3
    · rw [irfStep_search hsk (by
        by_cases h0 : shkVec sl i = 0
        · right
          intro s hs
          by_contra hn
          exact hc ⟨h0, s, hs, hn⟩
        · exact .inl h0), irfStep_free hsk] at h1
      have hm : s'.mult = s.mult := by
        split at h1
        · cases h1
        · cases h1; rfl
      rw [hm]
      refine ⟨.inl, fun g => g.resolve_right ?_⟩
      rintro ⟨a1, a2, -⟩
      exact hc ⟨((shocksAt_iff _ _ _).1 a2).symm, a1⟩
  induction i generalizing s' with
  | zero =>
    rw [step 0 ⟨st, 0, 0, 0, false⟩ s' rfl hs']
    constructor
    · rintro (g | g)
      · cases g
      · exact ⟨0, le_rfl, g⟩
    · rintro ⟨j, hj, g⟩
      obtain rfl : j = 0 := by omega
      exact .inr g
  | succ i ih =>
    have hi : i < xs.length := by
      have := (List.getElem?_eq_some_iff.1 hs').1
      omega
    have hp : xs[i]? = some xs[i] := List.getElem?_eq_getElem hi
    rw [step (i + 1) xs[i] s' (by rw [List.getElem?_cons_succ]; exact hp) hs']
    refine (or_congr_left (ih _ hp)).trans ?_
    constructor
    · rintro (⟨j, hj, g⟩ | g)
      · exact ⟨j, by omega, g⟩
      · exact ⟨i + 1, le_rfl, g⟩
    · rintro ⟨j, hj, g⟩
      by_cases hji : j = i + 1
      · subst hji; exact .inr g
      · exact .inl ⟨j, by omega, g⟩

/-- In the period `i` there is a shock, and the search after it reports an error. -/
def Spec.SearchFailed (mod : Model z ε p o K) (sl : List (ShockSpec ε K)) (st : p ⊕ z → K) (xs : List (IrfState z p K)) (i : Nat) : Prop :=
  ∃ eps, Spec.ShocksAt sl i eps ∧ eps ≠ 0 ∧ ∃ s r, ((⟨st, 0, 0, 0, false⟩ : IrfState z p K) :: xs)[i]? = some s ∧
    tFunc mod s.state eps .none false = .ok r ∧ r.flag ≠ 0

/-- **C175 (errors).** With a shock after period 0, `irfs` (with `force_init_equil`) returns an error flag after the period `i` if and only if
the search failed in one of the periods up to `i` with a shock.  In the other periods a failure of the search is not reported. -/
theorem C175_flag_iff (h : Succeeded lay orc lMax kMax sched mod) (hk1 : 1 ≤ kMax) {sl : List (ShockSpec ε K)} {sk : SetK}
    (hsk : sk = .none ∨ sk = .bool false) (hper : ∃ s ∈ sl, s.2.2 ≠ 0) {st : p ⊕ z → K} {T : Nat} {xs : List (IrfState z p K)}
    (hx : irfs mod ⟨sl, sk, true, false⟩ st T = .ok xs) (i : Nat) (s' : IrfState z p K) (hs' : xs[i]? = some s') :
    s'.flag ≠ 0 ↔ ∃ j ≤ i, Spec.SearchFailed mod sl st xs j := by
  obtain ⟨hlen, hst⟩ := irfRun_steps hx
  obtain ⟨c, hm⟩ := genSys_ok h.perm h.gen
  have hz := h.states
  have step : ∀ i s s', ((⟨st, 0, 0, 0, false⟩ : IrfState z p K) :: xs)[i]? = some s → xs[i]? = some s' →
      (s'.flag ≠ 0 ↔ s.flag ≠ 0 ∨ Spec.SearchFailed mod sl st xs i) := by
    intro i s s' hs hs'
    have h1 := hst i s s' hs hs'
    rw [Nat.zero_add] at h1
    obtain ⟨hl, hk⟩ := irfRun_inside h hk1 hsk hx i s hs
    by_cases hc : shkVec sl i = 0
    · obtain ⟨en, r, -, g2, -, g4⟩ := irfStep_continue h hk1 (sk := sk) hper hc hl hk
      obtain ⟨e1, e2⟩ := elapsed_le hl hk 1
      rw [tFunc_pair hm s.state 0 e1 e2] at g2
      rw [h1] at g4
      cases g4
      cases g2
      simp only [Nat.or_zero]
      refine ⟨.inl, fun g => g.resolve_right ?_⟩
      rintro ⟨eps, a1, a2, -⟩
      exact a2 (((shocksAt_iff _ _ _).1 a1).trans hc)
    · rw [irfStep_search hsk (.inl hc), irfStep_free hsk] at h1
      obtain ⟨r, hr, -, -⟩ := tFunc_endo h hk1 s.state (shkVec sl i) false
      rw [hr] at h1
      cases h1
      simp only [ne_eq, Nat.or_eq_zero_iff, not_and_or]
      refine or_congr_right ⟨fun g => ⟨_, (shocksAt_iff _ _ _).2 rfl, hc, s, r, hs, hr, g⟩, ?_⟩
      rintro ⟨eps, a1, a2, s2, r2, a3, a4, a5⟩
      rw [hs] at a3
      cases a3
      rw [(shocksAt_iff _ _ _).1 a1, hr] at a4
      cases a4
      exact a5
  induction i generalizing s' with
  | zero =>
    rw [step 0 ⟨st, 0, 0, 0, false⟩ s' rfl hs']
    constructor
    · rintro (g | g)
      · exact absurd rfl g
      · exact ⟨0, le_rfl, g⟩
    · rintro ⟨j, hj, g⟩
      obtain rfl : j = 0 := by omega
      exact .inr g
  | succ i ih =>
    have hi : i < xs.length := by
      have := (List.getElem?_eq_some_iff.1 hs').1
      omega
    have hp : xs[i]? = some xs[i] := List.getElem?_eq_getElem hi
    rw [step (i + 1) xs[i] s' (by rw [List.getElem?_cons_succ]; exact hp) hs']
    refine (or_congr_left (ih _ hp)).trans ?_
    constructor
    · rintro (⟨j, hj, g⟩ | g)
      · exact ⟨j, by omega, g⟩
      · exact ⟨i + 1, le_rfl, g⟩
    · rintro ⟨j, hj, g⟩
      by_cases hji : j = i + 1
      · subst hji; exact .inr g
      · exact .inl ⟨j, by omega, g⟩

/-- Runs with and without `force_init_equil`, as long as nothing is reported. -/
theorem irfRun_silent (h : Succeeded lay orc lMax kMax sched mod) (hk1 : 1 ≤ kMax) {sl : List (ShockSpec ε K)} {sk : SetK}
    (hsk : sk = .none ∨ sk = .bool false) (n : Nat) : ∀ (t : Nat) (s s2 : IrfState z p K) (xs : List (IrfState z p K)),
    s.l ≤ lMax → s.k ≤ kMax → s2.state = s.state → (s.flag ≠ 0 → s2.flag ≠ 0) → irfRun mod ⟨sl, sk, true, false⟩ t s n = .ok xs →
    (∀ x ∈ xs, x.mult = false) →
    ∃ ys, irfRun mod ⟨sl, sk, false, false⟩ t s2 n = .ok ys ∧
      List.Forall₂ (fun x y => x.state = y.state ∧ x.l = y.l ∧ x.k = y.k ∧ (x.flag ≠ 0 → y.flag ≠ 0)) xs ys := by
  induction n with
  | zero =>
    intro t s s2 xs _ _ _ _ hx _
    cases hx
    exact ⟨[], rfl, .nil⟩
  | succ n ih =>
    intro t s s2 xs hl hk hss hfl hx hm
    have hor : ∀ a b c d : Nat, (a ≠ 0 → c ≠ 0) → (b ≠ 0 → d ≠ 0) → (a ||| b ≠ 0 → c ||| d ≠ 0) := by
      intro a b c d h1 h2 h3 h4
      rw [Nat.or_eq_zero_iff] at h4
      refine h3 ?_
      rw [Nat.or_eq_zero_iff]
      exact ⟨by by_contra g; exact h1 g h4.1, by by_contra g; exact h2 g h4.2⟩
    unfold irfRun at hx
    split at hx
    · cases hx
    · rename_i s' hs'
      split at hx
      · cases hx
      · rename_i rest hrest
        cases hx
        have hin := irfStep_inside h hk1 hsk hl hk hs'
        have hstep : ∃ y, irfStep mod ⟨sl, sk, false, false⟩ s2 t = .ok y ∧ s'.state = y.state ∧ s'.l = y.l ∧ s'.k = y.k ∧
            (s'.flag ≠ 0 → y.flag ≠ 0) := by
          by_cases hc : shkVec sl t = 0 ∧ ∃ s ∈ sl, s.2.2 ≠ 0
          · obtain ⟨en, r, g1, g2, g3, g4⟩ := irfStep_continue h hk1 (sk := sk) hc.2 hc.1 hl hk
            rw [hs'] at g4
            cases g4
            have hmm := hm _ (List.mem_cons_self ..)
            simp only [Bool.or_eq_false_iff, decide_eq_false_iff_not, not_not] at hmm
            obtain ⟨r', e1, e2, e3, e4⟩ := C14_impose_found_equilibrium h hk1 s.state 0 en g1
            rw [← hmm.2] at g2 g3
            have : r = r' := Except.ok.inj (g2.symm.trans e1)
            subst this
            rw [irfStep_free hsk, hss, hc.1, g1]
            refine ⟨_, rfl, e2, e3, e4, hor _ _ _ _ hfl ?_⟩
            intro hn
            exfalso
            apply hn
            obtain ⟨c, hmm⟩ := genSys_ok h.perm h.gen
            have := h.states
            obtain ⟨b1, b2⟩ := tFunc_endo h hk1 s.state (0 : ε → K) false
            have hin2 : en.l ≤ lMax ∧ en.k ≤ kMax := by
              rw [b2.1.symm.trans g1 |> Except.ok.inj] at b2
              exact b2.2
            have := tFunc_pair hmm s.state (0 : ε → K) hin2.1 hin2.2
            rw [g2] at this
            cases this
            rfl
          · rw [irfStep_search hsk (by
              by_cases h0 : shkVec sl t = 0
              · right
                intro s hs
                by_contra hn
                exact hc ⟨h0, s, hs, hn⟩
              · exact .inl h0), irfStep_free hsk] at hs'
            rw [irfStep_free hsk, hss]
            split at hs'
            · cases hs'
            · cases hs'
              exact ⟨_, rfl, rfl, rfl, rfl, hor _ _ _ _ hfl id⟩
        obtain ⟨y, y1, y2, y3, y4, y5⟩ := hstep
        obtain ⟨ys, z1, z2⟩ := ih (t + 1) s' y rest hin.1 hin.2 y2.symm y5 hrest fun x hx => hm x (List.mem_cons_of_mem _ hx)
        refine ⟨y :: ys, ?_, .cons ⟨y2, y3, y4, y5⟩ z2⟩
        unfold irfRun
        rw [y1]
        simp only
        rw [z1]

/-- **C175 (silence).** If `irfs` does not report multiplicities, the response is the same as with an equilibrium searched for anew in every
period, and every error is reported there, too. -/
theorem C175_silent (h : Succeeded lay orc lMax kMax sched mod) (hk1 : 1 ≤ kMax) {sl : List (ShockSpec ε K)} {sk : SetK}
    (hsk : sk = .none ∨ sk = .bool false) {st : p ⊕ z → K} {T : Nat} {xs : List (IrfState z p K)}
    (hx : irfs mod ⟨sl, sk, true, false⟩ st T = .ok xs) (hq : ∀ x, xs.getLast? = some x → x.mult = false) :
    ∃ ys, irfs mod ⟨sl, sk, false, false⟩ st T = .ok ys ∧
      List.Forall₂ (fun x y => x.state = y.state ∧ x.l = y.l ∧ x.k = y.k ∧ (x.flag ≠ 0 → y.flag ≠ 0)) xs ys := by
  refine irfRun_silent h hk1 hsk T 0 _ ⟨st, 0, 0, 0, false⟩ xs (Nat.zero_le _) (Nat.zero_le _) rfl (fun g => g) hx ?_
  intro x hxm
  by_contra hn
  rw [Bool.not_eq_false] at hn
  obtain ⟨i, hi⟩ := List.getElem?_of_mem hxm
  have hlt := (List.getElem?_eq_some_iff.1 hi).1
  obtain ⟨j, hj, hd⟩ := (C175_reported_iff h hk1 hsk hx i x hi).1 hn
  have hl : xs[xs.length - 1]? = some xs[xs.length - 1] := List.getElem?_eq_getElem (by omega)
  have := (C175_reported_iff h hk1 hsk hx _ _ hl).2 ⟨j, by omega, hd⟩
  rw [hq _ (by rw [List.getLast?_eq_getElem?]; exact hl)] at this
  cases this

/-- After a period with shocks the response follows the path that is expected in this period, until the next shock. -/
theorem irfs_continues (h : Succeeded lay orc lMax kMax sched mod) (hk1 : 1 ≤ kMax) {sl : List (ShockSpec ε K)} {sk : SetK}
    (hsk : sk = .none ∨ sk = .bool false) (hper : ∃ s ∈ sl, s.2.2 ≠ 0) {st : p ⊕ z → K} {T : Nat} {xs : List (IrfState z p K)}
    (hx : irfs mod ⟨sl, sk, true, false⟩ st T = .ok xs) {j : Nat} {s0 : IrfState z p K}
    (hs0 : ((⟨st, 0, 0, 0, false⟩ : IrfState z p K) :: xs)[j]? = some s0) {eps : ε → K} (he : Spec.ShocksAt sl j eps) (he0 : eps ≠ 0)
    {r : Step z p K} (hr : tFunc mod s0.state eps .none false = .ok r) {X : Nat → p ⊕ z → K} (hX : ExpectedPath mod r.l r.k s0.state eps X)
    {d : Nat} (hno : ∀ i, j < i → i ≤ j + d → Spec.ShocksAt sl i 0) {s : IrfState z p K}
    (hs : ((⟨st, 0, 0, 0, false⟩ : IrfState z p K) :: xs)[j + d + 1]? = some s) : s.state = X d ∧ (s.l, s.k) = elapsed r.l r.k d := by
  obtain ⟨hlen, hst⟩ := irfRun_steps hx
  have hsh : shkVec sl j = eps := ((shocksAt_iff _ _ _).1 he).symm
  induction d generalizing s with
  | zero =>
    rw [Nat.add_zero, List.getElem?_cons_succ] at hs
    have h1 := hst j s0 s hs0 hs
    rw [Nat.zero_add, irfStep_search hsk (.inl (by rw [hsh]; exact he0)), irfStep_free hsk, hsh, hr] at h1
    cases h1
    refine ⟨?_, (elapsed_zero _ _).symm⟩
    obtain ⟨r', g1, g2, _, _⟩ := C14_impose_found_equilibrium h hk1 _ _ r hr
    obtain ⟨r'', g5, g6⟩ := hX 0
    rw [elapsed_zero] at g5
    have : r' = r'' := Except.ok.inj (g1.symm.trans g5)
    rw [g6, ← this, g2]
  | succ d ih =>
    have hs2 := hs
    rw [List.getElem?_cons_succ] at hs2
    have hi : j + (d + 1) < xs.length := (List.getElem?_eq_some_iff.1 hs2).1
    obtain ⟨s1, hs1⟩ : ∃ s, ((⟨st, 0, 0, 0, false⟩ : IrfState z p K) :: xs)[j + d + 1]? = some s :=
      ⟨_, List.getElem?_eq_getElem (by simp; omega)⟩
    obtain ⟨a1, a2⟩ := ih (fun i h1 h2 => hno i h1 (by omega)) hs1
    have h1 := hst (j + d + 1) s1 s hs1 hs2
    rw [Nat.zero_add] at h1
    obtain ⟨hl, hk⟩ := irfRun_inside h hk1 hsk hx _ s1 hs1
    obtain ⟨en, r2, -, g2, g3, g4⟩ := irfStep_continue h hk1 (sk := sk) hper
      ((shocksAt_iff _ _ _).1 (hno (j + d + 1) (by omega) (by omega))).symm hl hk
    rw [h1] at g4
    cases g4
    have e : elapsed s1.l s1.k 1 = elapsed r.l r.k (d + 1) := by
      rw [← elapsed_add, ← a2]
    refine ⟨?_, by rw [← e]; exact g3⟩
    obtain ⟨r3, b1, b2⟩ := hX (d + 1)
    rw [e, a1] at g2
    have : r2 = r3 := Except.ok.inj (g2.symm.trans b1)
    rw [b2, ← this]

end Runs

section Yaml

variable {E ν ε o K : Type} [Fintype E] [Fintype ν] [Fintype ε] [Fintype o]
  [DecidableEq E] [DecidableEq ν] [DecidableEq ε] [Field K] [LinearOrder K] [IsStrictOrderedRing K]
variable {H z p : Type} [DecidableEq H] [Fintype H] [Fintype z] [Fintype p] [DecidableEq z] [DecidableEq p]
variable {D : Declared E ν ε K} {Z0 : Matrix o ν K} {Z1 : o → K} {tol : K} [DecidablePred (inall tol (yaml D Z0 Z1))]
  {lay : Layout tol (yaml D Z0 Z1) H z p}
  {orc : Oracle (Rows E H ε) (z ⊕ ε) p K} {lMax kMax : Nat} {sched : Nat → List Nat} {mod : Model z ε p o K}

/-- Two spells with the same path, on which the constraint is nowhere just about to bind, are the same. -/
theorem spells_of_path (h : Succeeded lay orc lMax kMax sched mod) (hlag : Spec.LagsNotExpected D) (hself : D.rb D.cvar ≠ 1) (hl1 : 1 ≤ lMax)
    {st : p ⊕ z → K} {eps : ε → K} {l k l' k' : Nat} (hl : l ≤ lMax) (hk : k ≤ kMax) (hl' : l' ≤ lMax) (hk' : k' ≤ kMax)
    (h00 : k = 0 → l = 0) (h00' : k' = 0 → l' = 0) {X : Nat → p ⊕ z → K} (hX : ExpectedPath mod l k st eps X)
    (hX' : ExpectedPath mod l' k' st eps X)
    (hoff : ∀ s, Spec.ruleAt (Spec.asSolved D) (lagVal lay st) eps (Spec.declared lay X) s ≠ D.xbar) : l = l' ∧ k = k' := by
  have hb : ∀ s, BindsAt l k s ↔ BindsAt l' k' s := by
    intro s
    by_contra hn
    obtain ⟨e1, e2⟩ := (C149_two_spells h hlag hself hl hk hl' hk' (.inl hl1) hX).1 hX' s hn
    have e3 : Spec.declared lay X s (Spec.asSolved D).cvar = notional (Spec.asSolved D) (lagVal lay st) eps (Spec.declared lay X) s :=
      e1.trans e2.symm
    rw [← rule_iff (D := Spec.asSolved D) hself] at e3
    exact hoff s (e3.symm.trans e1)
  unfold BindsAt at hb
  by_cases hk0 : k = 0
  · have := h00 hk0
    have h2 := hb l'
    omega
  · have h1 := hb l
    have h2 := hb l'
    have h3 := hb (l + k)
    have h4 := hb (l' + k')
    omega

/-- **C175 (what it means, partial).** A report after an equilibrium is true: let the last shocks be `eps` in period `j`, the path `X` that is then
expected an equilibrium, and let the search in a later period without shocks, at the state `s` that has been reached, give another spell, with
path `Y`, which is an equilibrium as well.  If on `Y` the constraint is never just about to bind, the continued path is an equilibrium, too, and
different from `Y`.  Missing: reports before the first shock, if the search has failed, and if the spells differ where the constraint is just
about to bind. -/
theorem C175_two_equilibria_partial (h : Succeeded lay orc lMax kMax sched mod) (hk1 : 1 ≤ kMax) (hl1 : 1 ≤ lMax) (hlag : Spec.LagsNotExpected D)
    (hself : D.rb D.cvar ≠ 1) {sl : List (ShockSpec ε K)} {sk : SetK} (hsk : sk = .none ∨ sk = .bool false) (hper : ∃ s ∈ sl, s.2.2 ≠ 0)
    {st : p ⊕ z → K} {T : Nat} {xs : List (IrfState z p K)} (hx : irfs mod ⟨sl, sk, true, false⟩ st T = .ok xs)
    {j : Nat} {s0 : IrfState z p K} (hs0 : ((⟨st, 0, 0, 0, false⟩ : IrfState z p K) :: xs)[j]? = some s0) {eps : ε → K}
    (he : Spec.ShocksAt sl j eps) (he0 : eps ≠ 0) {r : Step z p K} (hr : tFunc mod s0.state eps .none false = .ok r)
    {X : Nat → p ⊕ z → K} (hX : ExpectedPath mod r.l r.k s0.state eps X)
    (hXe : Spec.RuleEquilibrium (Spec.asSolved D) (lagVal lay s0.state) eps (Spec.declared lay X))
    {d : Nat} (hno : ∀ i, j < i → i ≤ j + d → Spec.ShocksAt sl i 0) {s : IrfState z p K}
    (hs : ((⟨st, 0, 0, 0, false⟩ : IrfState z p K) :: xs)[j + d + 1]? = some s)
    {en : Step z p K} (hen : tFunc mod s.state 0 .none false = .ok en) {Y : Nat → p ⊕ z → K} (hY : ExpectedPath mod en.l en.k s.state 0 Y)
    (hoff : ∀ t, Spec.ruleAt (Spec.asSolved D) (lagVal lay s.state) 0 (Spec.declared lay Y) t ≠ D.xbar) :
    ∃ Z, ExpectedPath mod (elapsed s.l s.k 1).1 (elapsed s.l s.k 1).2 s.state 0 Z ∧
      Spec.RuleEquilibrium (Spec.asSolved D) (lagVal lay s.state) 0 (Spec.declared lay Z) ∧ (Z ≠ Y ↔ (en.l, en.k) ≠ elapsed s.l s.k 1) := by
  obtain ⟨hl, hk⟩ := found_inside h hk1 hr
  obtain ⟨hel, hek⟩ := found_inside h hk1 hen
  obtain ⟨e1, e2⟩ := irfs_continues h hk1 hsk hper hx hs0 he he0 hr hX hno hs
  have e : elapsed s.l s.k 1 = elapsed r.l r.k (d + 1) := by
    rw [← elapsed_add, ← e2]
  have h00 : ∀ {st : p ⊕ z → K} {u : ε → K} {r' : Step z p K}, tFunc mod st u .none false = .ok r' → (r'.k = 0 → r'.l = 0) := by
    intro st u r' hr'
    obtain ⟨c, hm⟩ := genSys_ok h.perm h.gen
    obtain ⟨M', hS⟩ := hm.eng
    have hz := h.states
    obtain ⟨l, k, flag, hf, hl, hk, hcase⟩ := findLk_cases (xbar := mod.xbar) (checkCnst_reads hS (q0Of st u)) (by omega) (by omega)
    rw [tFunc_find hm st u hf (by omega) (by omega)] at hr'
    cases hr'
    simp only
    rcases hcase with ⟨h1, _⟩ | ⟨_, h2⟩ | ⟨h1, _⟩
    · exact fun _ => h1
    · have := h2.binds; omega
    · exact fun _ => h1
  have hZ := C15_restart hX d
  rw [← e1, ← e] at hZ
  have hZe := equilibrium_later h hlag hl hk hX hXe d
  rw [← e1] at hZe
  refine ⟨_, hZ, hZe, not_iff_not.2 ⟨fun hZY => ?_, fun g => ?_⟩⟩
  · rw [hZY] at hZ
    have hle := elapsed_le hl hk (d + 1)
    rw [← e] at hle
    obtain ⟨a1, a2⟩ := spells_of_path h hlag hself hl1 hel hek hle.1 hle.2 (h00 hen)
      (fun g => by
        have := h00 hr
        rw [e] at g ⊢
        unfold elapsed at g ⊢
        split_ifs at g ⊢ <;> simp only at g ⊢ <;> omega) hY hZ hoff
    exact Prod.ext a1 a2
  · have hf := noLagFwd_of_not_expected (Z0 := Z0) (Z1 := Z1) hlag
    rw [← g] at hZ
    obtain ⟨c, hm⟩ := genSys_ok h.perm h.gen
    have b1 := (expectedPath_iff hm h.orc h.noTiny h.square h.states hf hel hek s.state 0 _).1 hZ
    have b2 := (expectedPath_iff hm h.orc h.noTiny h.square h.states hf hel hek s.state 0 _).1 hY
    funext t
    rw [b2 t]
    exact b1 t

/-- **C175 (no false alarm, partial).** If announced disturbances of the constraint do not reverse, there is no such report. -/
theorem C175_no_false_alarm_partial (h : Succeeded lay orc lMax kMax sched mod) (hk1 : 1 ≤ kMax) (hl1 : 1 ≤ lMax)
    (hlag : Spec.LagsNotExpected D) (hself : D.rb D.cvar ≠ 1) (hP : Spec.NoReversalOf lay mod) {sl : List (ShockSpec ε K)} {sk : SetK}
    (hsk : sk = .none ∨ sk = .bool false) (hper : ∃ s ∈ sl, s.2.2 ≠ 0)
    {st : p ⊕ z → K} {T : Nat} {xs : List (IrfState z p K)} (hx : irfs mod ⟨sl, sk, true, false⟩ st T = .ok xs)
    {j : Nat} {s0 : IrfState z p K} (hs0 : ((⟨st, 0, 0, 0, false⟩ : IrfState z p K) :: xs)[j]? = some s0) {eps : ε → K}
    (he : Spec.ShocksAt sl j eps) (he0 : eps ≠ 0) {r : Step z p K} (hr : tFunc mod s0.state eps .none false = .ok r)
    {X : Nat → p ⊕ z → K} (hX : ExpectedPath mod r.l r.k s0.state eps X)
    (hXe : Spec.RuleEquilibrium (Spec.asSolved D) (lagVal lay s0.state) eps (Spec.declared lay X))
    {d : Nat} (hno : ∀ i, j < i → i ≤ j + d → Spec.ShocksAt sl i 0) {s : IrfState z p K}
    (hs : ((⟨st, 0, 0, 0, false⟩ : IrfState z p K) :: xs)[j + d + 1]? = some s)
    {en : Step z p K} (hen : tFunc mod s.state 0 .none false = .ok en) {Y : Nat → p ⊕ z → K} (hY : ExpectedPath mod en.l en.k s.state 0 Y)
    (hYe : Spec.RuleEquilibrium (Spec.asSolved D) (lagVal lay s.state) 0 (Spec.declared lay Y))
    (hoff : ∀ t, Spec.ruleAt (Spec.asSolved D) (lagVal lay s.state) 0 (Spec.declared lay Y) t ≠ D.xbar) :
    (en.l, en.k) = elapsed s.l s.k 1 := by
  obtain ⟨Z, h1, h2, h3⟩ := C175_two_equilibria_partial h hk1 hl1 hlag hself hsk hper hx hs0 he he0 hr hX hXe hno hs hen hY hoff
  by_contra hn
  obtain ⟨hel, hek⟩ := found_inside h hk1 hen
  obtain ⟨hl, hk⟩ := irfRun_inside h hk1 hsk hx _ s hs
  obtain ⟨e1, e2⟩ := elapsed_le hl hk 1
  exact h3.2 hn (C174_one_path h hlag hself hP e1 e2 hel hek h1 hY h2 hYe)

end Yaml

end Pydsge
