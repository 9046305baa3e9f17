import Verif.Props.StaysRegular
import Verif.Props.ForceExact
import Verif.Props.MultFlag

/-!
# C18: where equilibria are unique, `force_init_equil` does not matter

tools.py:256-331: with `force_init_equil` the loop of `irfs` continues the last spell in periods without a shock instead of searching anew.
-/

set_option autoImplicit false
set_option linter.unusedSectionVars false
set_option linter.unusedSimpArgs false

namespace Pydsge

open Matrix Pydsge.Engine Pydsge.Spec Pydsge.Tools Pydsge.GenSys

variable {E ν ε o K : Type} [Fintype E] [Fintype ν] [Fintype ε] [Fintype o]
  [DecidableEq E] [DecidableEq ν] [DecidableEq ε] [Field K] [LinearOrder K] [IsStrictOrderedRing K]
variable {H z p : Type} [DecidableEq H] [Fintype H] [Fintype z] [Fintype p] [DecidableEq z] [DecidableEq p]
section Yaml
variable {D : Declared E ν ε K} {Z0 : Matrix o ν K} {Z1 : o → K} {tol : K} [DecidablePred (inall tol (yaml D Z0 Z1))]
  {lay : Layout tol (yaml D Z0 Z1) H z p} {orc : Oracle (Rows E H ε) (z ⊕ ε) p K} {lMax kMax : Nat}
  {sched : Nat → List Nat} {mod : Model z ε p o K}

/-- Without a shock, the continuation of the spell `(l,k)` from the state `st` is an equilibrium. -/
def Spec.ContinuesWell (lay : Layout tol (yaml D Z0 Z1) H z p) (mod : Model z ε p o K) (st : p ⊕ z → K) (l k : Nat) : Prop :=
  ∃ X, ExpectedPath mod (elapsed l k 1).1 (elapsed l k 1).2 st 0 X ∧
    Spec.RuleEquilibrium (Spec.asSolved D) (lagVal lay st) 0 (Spec.declared lay X)

/-- The search gives no spell `(l,0)` other than `(0,0)`. -/
theorem found_zero (h : Succeeded lay orc lMax kMax sched mod) (hk1 : 1 ≤ kMax) {st : p ⊕ z → K} {u : ε → K} {r : Step z p K}
    (hr : tFunc mod st u .none false = .ok r) (h0 : r.k = 0) : r.l = 0 := by
  obtain ⟨c, hm⟩ := genSys_ok h.perm h.gen
  obtain ⟨M', hS⟩ := hm.eng
  have hz := h.states
  obtain ⟨l, k, flag, hf, hl, hk, hcase⟩ := findLk_cases (xbar := mod.xbar) (checkCnst_reads hS (q0Of st u)) (by omega) (by omega)
  rw [tFunc_find hm st u hf (by omega) (by omega)] at hr
  cases hr
  simp only at h0 ⊢
  rcases hcase with ⟨h1, _⟩ | ⟨_, h2⟩ | ⟨h1, _⟩
  · exact h1
  · have := h2.binds; omega
  · exact h1

theorem elapsed_zero_spell {l k : Nat} (h00 : k = 0 → l = 0) (g : (elapsed l k 1).2 = 0) : (elapsed l k 1).1 = 0 := by
  unfold elapsed at g ⊢
  split_ifs at g ⊢ <;> (try simp only at g ⊢) <;> omega

/-- The two responses, with and without `force_init_equil`, go through the same states, and the spell that is continued is an equilibrium. -/
theorem forced_invariant (h : Succeeded lay orc lMax kMax sched mod) (hk1 : 1 ≤ kMax) (hlag : Spec.LagsNotExpected D) (hself : D.rb D.cvar ≠ 1)
    (hF : Spec.FlagMeansEquilibrium lay mod) (hP : Spec.NoReversalOf lay mod) {sk : SetK} (hsk : sk = .none ∨ sk = .bool false) {sl : List (ShockSpec ε K)}
    (hper : ∃ s ∈ sl, s.2.2 ≠ 0) {st : p ⊕ z → K} (hinit : ¬ Spec.ShocksAt sl 0 0 ∨ Spec.ContinuesWell lay mod st 0 0) {T : Nat} {xs ys : List (IrfState z p K)}
    (hx : irfs mod ⟨sl, sk, true, false⟩ st T = .ok xs) (hy : irfs mod ⟨sl, sk, false, false⟩ st T = .ok ys) (hf : ∀ y ∈ ys, y.flag = 0) :
    ∀ i s y, ((⟨st, 0, 0, 0, false⟩ : IrfState z p K) :: xs)[i]? = some s → ((⟨st, 0, 0, 0, false⟩ : IrfState z p K) :: ys)[i]? = some y →
      s.state = y.state ∧ s.l ≤ lMax ∧ s.k ≤ kMax ∧ (s.k = 0 → s.l = 0) ∧ ((i = 0 ∧ shkVec sl 0 ≠ 0) ∨ Spec.ContinuesWell lay mod s.state s.l s.k) := by
  obtain ⟨xs', hx', hlen, hstep⟩ := C18_spell_continued_partial h hk1 hsk sl hper st T
  obtain rfl : xs = xs' := Except.ok.inj (hx.symm.trans hx')
  obtain ⟨hleny, h2⟩ := irfRun_steps hy
  intro i
  induction i with
  | zero =>
    intro s y hs hy0
    cases hs
    cases hy0
    refine ⟨rfl, Nat.zero_le _, Nat.zero_le _, fun _ => rfl, ?_⟩
    rcases hinit with g | g
    · exact .inl ⟨rfl, fun e => g ((shocksAt_iff sl 0 0).2 e.symm)⟩
    · exact .inr g
  | succ i ih =>
    intro s' y' hs' hy'
    rw [List.getElem?_cons_succ] at hs' hy'
    have hi : i < xs.length := (List.getElem?_eq_some_iff.1 hs').1
    have hi' : i < ys.length := (List.getElem?_eq_some_iff.1 hy').1
    obtain ⟨s, hs⟩ : ∃ s, ((⟨st, 0, 0, 0, false⟩ : IrfState z p K) :: xs)[i]? = some s :=
      ⟨_, List.getElem?_eq_getElem (by rw [List.length_cons]; omega)⟩
    obtain ⟨y, hy0⟩ : ∃ y, ((⟨st, 0, 0, 0, false⟩ : IrfState z p K) :: ys)[i]? = some y :=
      ⟨_, List.getElem?_eq_getElem (by rw [List.length_cons]; omega)⟩
    obtain ⟨e1, hl, hk, h00, hJ⟩ := ih s y hs hy0
    have g3 := h2 i y y' hy0 hy'
    have hf' : y'.flag = 0 := hf y' (List.mem_of_getElem? hy')
    rw [irfStep_free hsk, Nat.zero_add, ← e1] at g3
    generalize hr : tFunc mod s.state (shkVec sl i) .none false = R at g3
    rcases R with err | r
    · cases g3
    · have e3 := Except.ok.inj g3
      have hrf : r.flag = 0 := by
        have : y.flag ||| r.flag = 0 := by rw [← e3] at hf'; exact hf'
        exact (Nat.or_eq_zero_iff.1 this).2
      have hys : y'.state = r.state := by rw [← e3]
      obtain ⟨Y, hY, hYe⟩ := hF _ _ r hr hrf
      obtain ⟨hrl, hrk⟩ := found_inside h hk1 hr
      have hr0 := first_reported h hk1 hr hY
      obtain ⟨q1, q2⟩ := hstep i s s' hs hs'
      by_cases hz : shkVec sl i = 0
      · obtain ⟨q3, r2, q4, q5⟩ := q1 hz
        obtain ⟨Z, hZ, hZe⟩ : Spec.ContinuesWell lay mod s.state s.l s.k := by
          rcases hJ with ⟨rfl, g⟩ | g
          · exact absurd hz g
          · exact g
        rw [hz] at hr hY hYe
        have hel := (elapsed_le hl hk 1).1
        have hek := (elapsed_le hl hk 1).2
        have hZY := C174_one_path h hlag hself hP hel hek hrl hrk hZ hY hZe hYe
        have ql : s'.l = (elapsed s.l s.k 1).1 := by rw [← q3]
        have qk : s'.k = (elapsed s.l s.k 1).2 := by rw [← q3]
        have hs0 : s'.state = Z 0 := by
          obtain ⟨r3, g5, g6⟩ := hZ 0
          rw [elapsed_zero] at g5
          rw [ql, qk] at q4
          have g7 : Except.ok r2 = Except.ok (ε := PyErr) r3 := q4.symm.trans g5
          rw [q5, g6, Except.ok.inj g7]
        refine ⟨?_, by rw [ql]; exact hel, by rw [qk]; exact hek, fun g => ?_, .inr ?_⟩
        · rw [hys, hr0, ← hZY, hs0]
        · rw [qk] at g
          rw [ql]
          exact elapsed_zero_spell h00 g
        · have hre := C15_restart hZ 0
          rw [← hs0, ← ql, ← qk] at hre
          have hle := equilibrium_later h hlag hel hek hZ hZe 0
          rw [← hs0] at hle
          exact ⟨_, hre, hle⟩
      · obtain ⟨r2, q3, q4, q5, q6⟩ := q2 hz
        rw [hr] at q3
        cases q3
        have hs0 : s'.state = Y 0 := q4.trans hr0
        refine ⟨by rw [q4, hys], by rw [q5]; exact hrl, by rw [q6]; exact hrk, fun g => by rw [q5]; exact found_zero h hk1 hr (by rw [← q6]; exact g), .inr ?_⟩
        have hre := C15_restart hY 0
        rw [← hs0, ← q5, ← q6] at hre
        have hle := equilibrium_later h hlag hrl hrk hY hYe 0
        rw [← hs0] at hle
        exact ⟨_, hre, hle⟩

/-- **C18**: where equilibria are unique and flag 0 means an equilibrium, a response without an error to shocks of any dates is the same with `force_init_equil`, if there is a shock in
the first period or the initial state is one from which the constraint never binds. -/
theorem C18_no_difference (h : Succeeded lay orc lMax kMax sched mod) (hk1 : 1 ≤ kMax) (hlag : Spec.LagsNotExpected D) (hself : D.rb D.cvar ≠ 1)
    (hF : Spec.FlagMeansEquilibrium lay mod) (hP : Spec.NoReversalOf lay mod) {sk : SetK} (hsk : sk = .none ∨ sk = .bool false) (sl : List (ShockSpec ε K))
    (st : p ⊕ z → K) (hinit : ¬ Spec.ShocksAt sl 0 0 ∨ Spec.ContinuesWell lay mod st 0 0) {T : Nat} {ys : List (IrfState z p K)}
    (hy : irfs mod ⟨sl, sk, false, false⟩ st T = .ok ys) (hf : ∀ y ∈ ys, y.flag = 0) :
    ∃ xs, irfs mod ⟨sl, sk, true, false⟩ st T = .ok xs ∧ xs.map (·.state) = ys.map (·.state) := by
  by_cases hper : ∀ s ∈ sl, s.2.2 = 0
  · exact ⟨ys, (C18_ignored mod hper sk false st T).trans hy, rfl⟩
  · obtain ⟨xs, hx, hlen, hstep⟩ := C18_spell_continued_partial h hk1 hsk sl (by push Not at hper; exact hper) st T
    obtain ⟨hleny, h2⟩ := irfRun_steps hy
    refine ⟨xs, hx, ?_⟩
    have key := forced_invariant h hk1 hlag hself hF hP hsk (by push Not at hper; exact hper) hinit hx hy hf
    refine List.ext_getElem? fun i => ?_
    rw [List.getElem?_map, List.getElem?_map]
    rcases Nat.lt_or_ge i T with hi | hi
    · have a1 : xs[i]? = some (xs[i]'(by omega)) := List.getElem?_eq_getElem _
      have a2 : ys[i]? = some (ys[i]'(by omega)) := List.getElem?_eq_getElem _
      have := (key (i + 1) _ _ (by rw [List.getElem?_cons_succ]; exact a1) (by rw [List.getElem?_cons_succ]; exact a2)).1
      rw [a1, a2, Option.map_some, Option.map_some, this]
    · rw [List.getElem?_eq_none (by omega), List.getElem?_eq_none (by omega)]

/-- At the steady state, with a bound below it, the spell `(0,0)` continues well. -/
theorem continues_at_rest (h : Succeeded lay orc lMax kMax sched mod) (hx0 : D.xbar < 0) (hF : Spec.FlagMeansEquilibrium lay mod) :
    Spec.ContinuesWell lay mod (0 : p ⊕ z → K) 0 0 := by
  obtain ⟨r, h1, h2, h3, h4, h5⟩ := C10_steady_state_fixed_point h hx0 false
  obtain ⟨X, hX, hXe⟩ := hF 0 0 r h1 h5
  rw [h3, h4] at hX
  have e : elapsed 0 0 1 = (0, 0) := rfl
  exact ⟨X, by rw [e]; exact hX, hXe⟩

/-- **C157** where equilibria are unique: with `force_init_equil`, as with all default arguments, shocks that occur later give the same response later, if the response has no error. -/
theorem C157_unique (h : Succeeded lay orc lMax kMax sched mod) (hk1 : 1 ≤ kMax) (hx0 : D.xbar < 0) (hlag : Spec.LagsNotExpected D) (hself : D.rb D.cvar ≠ 1)
    (hF : Spec.FlagMeansEquilibrium lay mod) (hP : Spec.NoReversalOf lay mod) {sk : SetK} (hsk : sk = .none ∨ sk = .bool false) (sl : List (ShockSpec ε K))
    (hper : ∀ s ∈ sl, 0 ≤ s.2.2) (n T : Nat) {xs : List (IrfState z p K)} (hx : irfs mod ⟨sl, sk, false, false⟩ 0 T = .ok xs)
    (hf : ∀ x ∈ xs, x.flag = 0) : ∃ ys ws, irfs mod ⟨sl, sk, true, false⟩ 0 T = .ok ys ∧
      irfs mod ⟨Spec.delayed n sl, sk, true, false⟩ 0 (n + T) = .ok ws ∧ ws.map (·.state) = List.replicate n 0 ++ ys.map (·.state) := by
  have hc := continues_at_rest h hx0 hF
  obtain ⟨ys, hy, e1⟩ := C18_no_difference h hk1 hlag hself hF hP hsk sl 0 (.inr hc) hx hf
  have hd := C157_delay_partial h hx0 sl hper hsk false false (.inl rfl) n T
  rw [hx] at hd
  obtain ⟨ws, hw, e2⟩ := C18_no_difference h hk1 hlag hself hF hP hsk (Spec.delayed n sl) 0 (.inr hc) hd (by
    intro y hy
    rcases List.mem_append.1 hy with g | g
    · rw [List.eq_of_mem_replicate g]
    · exact hf y g)
  refine ⟨ys, ws, hy, hw, ?_⟩
  rw [e2, e1, List.map_append, List.map_replicate]

/-- **C108** where equilibria are unique: with `force_init_equil`, shocks of later periods have no influence on states without an error. -/
theorem C108_unique (h : Succeeded lay orc lMax kMax sched mod) (hk1 : 1 ≤ kMax) (hlag : Spec.LagsNotExpected D) (hself : D.rb D.cvar ≠ 1)
    (hF : Spec.FlagMeansEquilibrium lay mod) (hP : Spec.NoReversalOf lay mod) {sk : SetK} (hsk : sk = .none ∨ sk = .bool false) {sl sl' : List (ShockSpec ε K)}
    {T : Nat} (hs : Spec.SameUntil T sl sl') (st : p ⊕ z → K) (hinit : (¬ Spec.ShocksAt sl 0 0 ∧ ¬ Spec.ShocksAt sl' 0 0) ∨ Spec.ContinuesWell lay mod st 0 0)
    {ys : List (IrfState z p K)} (hy : irfs mod ⟨sl, sk, false, false⟩ st T = .ok ys) (hf : ∀ y ∈ ys, y.flag = 0) :
    ∃ xs xs', irfs mod ⟨sl, sk, true, false⟩ st T = .ok xs ∧ irfs mod ⟨sl', sk, true, false⟩ st T = .ok xs' ∧ xs.map (·.state) = xs'.map (·.state) := by
  obtain ⟨xs, h1, e1⟩ := C18_no_difference h hk1 hlag hself hF hP hsk sl st (hinit.imp_left (·.1)) hy hf
  have hc := C108_causal_partial mod sk false false st T hs (.inl rfl)
  rw [hy] at hc
  obtain ⟨xs', h2, e2⟩ := C18_no_difference h hk1 hlag hself hF hP hsk sl' st (hinit.imp_left (·.2)) hc.symm hf
  exact ⟨xs, xs', h1, h2, e1.trans e2.symm⟩

/-- **C67** where equilibria are unique: with `force_init_equil`, every state of a response without an error satisfies the constraint equation, hence the bound. -/
theorem C67_unique (h : Succeeded lay orc lMax kMax sched mod) (hk1 : 1 ≤ kMax) (hlag : Spec.LagsNotExpected D) (hself : D.rb D.cvar ≠ 1)
    (hF : Spec.FlagMeansEquilibrium lay mod) (hP : Spec.NoReversalOf lay mod) {sk : SetK} (hsk : sk = .none ∨ sk = .bool false) (sl : List (ShockSpec ε K))
    (st : p ⊕ z → K) (hinit : ¬ Spec.ShocksAt sl 0 0 ∨ Spec.ContinuesWell lay mod st 0 0) {T : Nat} {ys : List (IrfState z p K)}
    (hy : irfs mod ⟨sl, sk, false, false⟩ st T = .ok ys) (hf : ∀ y ∈ ys, y.flag = 0) :
    ∃ xs, irfs mod ⟨sl, sk, true, false⟩ st T = .ok xs ∧ xs.length = T ∧ ∀ (t : Nat) x0 x e, (st :: xs.map (·.state))[t]? = some x0 → xs[t]? = some x →
      Spec.ShocksAt sl t e → lay.val x.state (.inl D.cvar) =
        max D.xbar (Spec.ruleValue (Spec.asSolved D) (lagVal lay x0) e (fun v => lay.val x.state (.inl v))) := by
  obtain ⟨xs, hx, e1⟩ := C18_no_difference h hk1 hlag hself hF hP hsk sl st hinit hy hf
  obtain ⟨hlen, h2⟩ := irfRun_steps hy
  have hl : xs.length = ys.length := by
    have := congrArg List.length e1
    simpa using this
  refine ⟨xs, hx, by omega, fun t x0 x e hx0 hxt he => ?_⟩
  have ht : t < ys.length := by have := (List.getElem?_eq_some_iff.1 hxt).1; omega
  have hyt : ys[t]? = some ys[t] := List.getElem?_eq_getElem ht
  obtain ⟨y0, hy0⟩ : ∃ y0, ((⟨st, 0, 0, 0, false⟩ : IrfState z p K) :: ys)[t]? = some y0 :=
    ⟨_, List.getElem?_eq_getElem (by rw [List.length_cons]; omega)⟩
  have s1 : x.state = ys[t].state := by
    have := congrArg (fun l => l[t]?) e1
    simp only [List.getElem?_map, hxt, hyt, Option.map_some, Option.some.injEq] at this
    exact this
  have s0 : x0 = y0.state := by
    rw [e1] at hx0
    have : ((⟨st, 0, 0, 0, false⟩ : IrfState z p K) :: ys).map (·.state) = st :: ys.map (·.state) := rfl
    rw [← this, List.getElem?_map, hy0] at hx0
    exact (Option.some.inj hx0).symm
  have g3 := h2 t y0 _ hy0 hyt
  have hf' : ys[t].flag = 0 := hf _ (List.getElem_mem ht)
  rw [irfStep_free hsk, Nat.zero_add, ← s0, ← (shocksAt_iff sl _ _).1 he] at g3
  generalize hr : tFunc mod x0 e .none false = R at g3
  rcases R with err | r
  · cases g3
  · have e3 := Except.ok.inj g3
    have hrf : r.flag = 0 := by
      have : y0.flag ||| r.flag = 0 := by rw [← e3] at hf'; exact hf'
      exact (Nat.or_eq_zero_iff.1 this).2
    have hst : r.state = x.state := by rw [s1, ← e3]
    have := realised_constraint h hk1 hlag hself hr hrf
    rwa [hst] at this

end Yaml

namespace Ex17

variable {b : Rat} [hneg : Fact (b < 0)] {lMax kMax : Nat} {sched : Nat → List Nat} {mod : Model (Fin 1) (Fin 1) (Fin 1) (Fin 1) Rat}

/-- the new state is not lower than what it starts from, or not negative -/
theorem state_ge (h : Succeeded (layB b) orc lMax kMax sched mod) (hk1 : 1 ≤ kMax) {st : Fin 1 ⊕ Fin 1 → Rat} {eps : Fin 1 → Rat}
    {r : Step (Fin 1) (Fin 1) Rat} (hr : tFunc mod st eps .none false = .ok r) {u : Rat} (hu : u ≤ 0) (hb : u ≤ st (.inr 0) + eps 0) : u ≤ r.state (.inr 0) := by
  have hn := hneg.out
  obtain ⟨hl, hk⟩ := found_inside h hk1 hr
  obtain ⟨X, hX⟩ := expectedPath_exists h hl hk st eps
  rw [first_reported h hk1 hr hX]
  have e : X 0 (.inr 0) = Spec.declared (layB b) X 0 0 := (val_y _).symm
  rw [e]
  by_cases hs : BindsAt r.l r.k 0
  · rw [path_binds h hl hk hX hs, base_zero]
    linarith
  · rw [path_slack h hl hk hX hs, base_zero]
    linarith

/-- two shocks, two periods apart -/
def twoShocks : List (ShockSpec (Fin 1) Rat) := [(0, -5, 0), (0, -5, 2)]

theorem twoShocks_at (t : Nat) : shkVec twoShocks t 0 = if t = 0 ∨ t = 2 then -5 else 0 := by
  simp only [shkVec, twoShocks, List.foldl]
  rcases Nat.lt_or_ge t 3 with e | e
  · interval_cases t <;> decide +kernel
  · rw [if_neg (by omega), if_neg (by omega), if_neg (by omega)]
    rfl

end Ex17

/-- **C18, C67, C108, C157**: the hypotheses of `C18_no_difference`, `C67_unique`, `C108_unique` and `C157_unique` are met: two shocks of `-5`, two periods apart, over any horizon; after the first one the constraint binds for two periods. -/
theorem C18_no_difference_met (lMax kMax : Nat) (hl : 1 ≤ lMax) (hk : 6 ≤ kMax) (hL : lMax + 1 ≤ 999) : ∃ mod,
    Succeeded Ex17.lay Ex17.orc lMax kMax (serial kMax) mod ∧ Spec.LagsNotExpected Ex17.decl ∧ Ex17.decl.rb Ex17.decl.cvar ≠ 1 ∧
    Spec.FlagMeansEquilibrium Ex17.lay mod ∧ Spec.NoReversalOf Ex17.lay mod ∧ ¬ Spec.ShocksAt Ex17.twoShocks 0 0 ∧ Ex17.decl.xbar < 0 ∧
    (∃ s ∈ Ex17.twoShocks, s.2.2 ≠ 0) ∧ (∃ r, tFunc mod 0 (fun _ => -5) .none false = .ok r ∧ r.flag = 0 ∧ r.l = 0 ∧ r.k = 2) ∧
    ∀ T, ∃ ys, irfs mod ⟨Ex17.twoShocks, .none, false, false⟩ 0 T = .ok ys ∧ ys.length = T ∧ ∀ y ∈ ys, y.flag = 0 := by
  obtain ⟨mod, h⟩ := Ex17.succeeds (b := -1) lMax kMax (fun _ _ => List.Perm.refl _)
  obtain ⟨r, a1, a2, a3, a4, -⟩ := Ex17.run h (k := 2) (by omega) (by omega) hL (st := 0) (eps := fun _ => -5) (by norm_num) (by norm_num)
  refine ⟨mod, h, Ex17.lagsNotExpected, Ex17.self_ne, Ex17.flagMeansEquilibrium h (by omega), Ex17.noReversalOf, ?_, by decide +kernel,
    ⟨_, List.mem_cons_of_mem _ (List.mem_singleton_self _), by decide⟩, ⟨r, a1, a2, a3, a4⟩, fun T => ?_⟩
  · rw [shocksAt_iff]
    intro g
    have := congrFun g 0
    rw [Ex17.twoShocks_at] at this
    norm_num at this
  have hkq : (6 : Rat) ≤ kMax := by exact_mod_cast hk
  let I : Nat → IrfState (Fin 1) (Fin 1) Rat → Prop := fun t s =>
    s.flag = 0 ∧ (if t = 0 then 0 else if t ≤ 2 then -5 else -10 : Rat) ≤ s.state (.inr 0)
  have hI : ∀ t s, I t s → ∃ s', irfStep mod ⟨Ex17.twoShocks, .none, false, false⟩ s t = .ok s' ∧ I (t + 1) s' := by
    rintro t s ⟨i1, i2⟩
    have hlow : (if t + 1 = 0 then 0 else if t + 1 ≤ 2 then -5 else -10 : Rat) ≤ s.state (.inr 0) + shkVec Ex17.twoShocks t 0 := by
      rw [Ex17.twoShocks_at]
      rcases Nat.lt_or_ge t 3 with e | e
      · interval_cases t <;> norm_num at i2 ⊢ <;> linarith
      · rw [if_neg (by omega), if_neg (by omega)] at i2
        rw [if_neg (by omega), if_neg (by omega), if_neg (by omega)]
        linarith
    have h10 : (-10 : Rat) ≤ (if t + 1 = 0 then 0 else if t + 1 ≤ 2 then -5 else -10 : Rat) := by split_ifs <;> norm_num
    have h0 : (if t + 1 = 0 then 0 else if t + 1 ≤ 2 then -5 else -10 : Rat) ≤ 0 := by split_ifs <;> norm_num
    obtain ⟨r', b1, b2⟩ := (Ex17.no_error_iff h hl (by omega) hL s.state (shkVec Ex17.twoShocks t)).2 (by linarith)
    rw [irfStep_free (.inl rfl), b1]
    exact ⟨_, rfl, by simp only [i1, b2, Nat.or_zero], Ex17.state_ge h (by omega) b1 h0 hlow⟩
  obtain ⟨ys, hy⟩ := irfRun_exists (m := mod) (a := ⟨Ex17.twoShocks, .none, false, false⟩) I hI T 0 ⟨0, 0, 0, 0, false⟩ ⟨rfl, by simp⟩
  obtain ⟨hlen, h2⟩ := irfRun_steps hy
  have hall : ∀ t s, ((⟨0, 0, 0, 0, false⟩ : IrfState (Fin 1) (Fin 1) Rat) :: ys)[t]? = some s → I t s := by
    intro t
    induction t with
    | zero =>
      intro s hs
      cases hs
      exact ⟨rfl, by simp⟩
    | succ t ih =>
      intro s hs
      rw [List.getElem?_cons_succ] at hs
      have ht : t < ys.length := (List.getElem?_eq_some_iff.1 hs).1
      obtain ⟨s0, hs0⟩ : ∃ s0, ((⟨0, 0, 0, 0, false⟩ : IrfState (Fin 1) (Fin 1) Rat) :: ys)[t]? = some s0 :=
        ⟨_, List.getElem?_eq_getElem (by rw [List.length_cons]; omega)⟩
      have := h2 t s0 s hs0 hs
      rw [Nat.zero_add] at this
      obtain ⟨s', g1, g2⟩ := hI t s0 (ih s0 hs0)
      rw [g1] at this
      cases this
      exact g2
  refine ⟨ys, hy, hlen, fun y hm => ?_⟩
  obtain ⟨i, hi⟩ := List.getElem?_of_mem hm
  exact (hall (i + 1) y (by rw [List.getElem?_cons_succ]; exact hi)).1

end Pydsge
