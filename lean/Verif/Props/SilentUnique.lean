import Verif.Props.ForceUnique
import Verif.Props.Durations

/-!
# C175: where equilibria are unique, `irfs` does not report multiple ones

tools.py:270-282, 309-331, 343.
-/

set_option autoImplicit false
set_option linter.unusedSectionVars false
set_option linter.unusedSimpArgs false

namespace Pydsge

open Matrix Pydsge.Engine Pydsge.Spec Pydsge.Tools Pydsge.GenSys

variable {E ν ε o K : Type} [Fintype E] [Fintype ν] [Fintype ε] [Fintype o]
  [DecidableEq E] [DecidableEq ν] [DecidableEq ε] [Field K] [LinearOrder K] [IsStrictOrderedRing K]
variable {H z p : Type} [DecidableEq H] [Fintype H] [Fintype z] [Fintype p] [DecidableEq z] [DecidableEq p]
section Yaml
variable {D : Declared E ν ε K} {Z0 : Matrix o ν K} {Z1 : o → K} {tol : K} [DecidablePred (inall tol (yaml D Z0 Z1))]
  {lay : Layout tol (yaml D Z0 Z1) H z p} {orc : Oracle (Rows E H ε) (z ⊕ ε) p K} {lMax kMax : Nat}
  {sched : Nat → List Nat} {mod : Model z ε p o K}

/-- On the path that is expected at the state `st` without shocks, the constraint equation never gives the bound exactly. -/
def Spec.OffTheEdge (lay : Layout tol (yaml D Z0 Z1) H z p) (mod : Model z ε p o K) (st : p ⊕ z → K) : Prop :=
  ∀ (r : Step z p K) (Y : Nat → p ⊕ z → K), tFunc mod st 0 .none false = .ok r → ExpectedPath mod r.l r.k st 0 Y →
    ∀ t, Spec.ruleAt (Spec.asSolved D) (lagVal lay st) 0 (Spec.declared lay Y) t ≠ D.xbar

/-- **C175** for whole responses: where equilibria are unique and flag 0 means an equilibrium, `irfs` with `force_init_equil` reports nothing, if the response without it has no error
and the constraint is never just about to bind in a period without a shock; it returns no error, and states and spells are those without `force_init_equil`. -/
theorem C175_unique_silent (h : Succeeded lay orc lMax kMax sched mod) (hk1 : 1 ≤ kMax) (hl1 : 1 ≤ lMax) (hlag : Spec.LagsNotExpected D) (hself : D.rb D.cvar ≠ 1)
    (hF : Spec.FlagMeansEquilibrium lay mod) (hP : Spec.NoReversalOf lay mod) {sk : SetK} (hsk : sk = .none ∨ sk = .bool false) (sl : List (ShockSpec ε K))
    (st : p ⊕ z → K) (hinit : ¬ Spec.ShocksAt sl 0 0 ∨ Spec.ContinuesWell lay mod st 0 0) {T : Nat} {ys : List (IrfState z p K)}
    (hy : irfs mod ⟨sl, sk, false, false⟩ st T = .ok ys) (hf : ∀ y ∈ ys, y.flag = 0)
    (hoff : ∀ t < T, Spec.ShocksAt sl t 0 → ∀ x0, (st :: ys.map (·.state))[t]? = some x0 → Spec.OffTheEdge lay mod x0) :
    ∃ xs, irfs mod ⟨sl, sk, true, false⟩ st T = .ok xs ∧ (∀ x ∈ xs, x.mult = false ∧ x.flag = 0) ∧
      xs.map (fun x => (x.state, x.l, x.k)) = ys.map (fun y => (y.state, y.l, y.k)) := by
  obtain ⟨hleny, hsteps⟩ := irfRun_steps hy
  obtain ⟨xs, hx, hst⟩ := C18_no_difference h hk1 hlag hself hF hP hsk sl st hinit hy hf
  have hlen : xs.length = T := by
    have := congrArg List.length hst
    simp only [List.length_map] at this
    omega
  have hnd : ∀ j, ¬ (j < T ∧ Spec.SpellsDiffer mod sl st xs j) := by
    rintro j ⟨hj, hper, he, s, en, hs, hen, hne⟩
    obtain ⟨y, hy0⟩ : ∃ y, ((⟨st, 0, 0, 0, false⟩ : IrfState z p K) :: ys)[j]? = some y :=
      ⟨_, List.getElem?_eq_getElem (by rw [List.length_cons]; omega)⟩
    obtain ⟨e1, hl, hk, h00, hJ⟩ := forced_invariant h hk1 hlag hself hF hP hsk hper hinit hx hy hf j s y hs hy0
    have hyj : ys[j]? = some (ys[j]'(by omega)) := List.getElem?_eq_getElem _
    have g3 := hsteps j y _ hy0 hyj
    have hf' : (ys[j]'(by omega)).flag = 0 := hf _ (List.getElem_mem _)
    rw [irfStep_free hsk, Nat.zero_add, ← e1, ← (shocksAt_iff sl _ _).1 he, hen] at g3
    have e3 := Except.ok.inj g3
    have hrf : en.flag = 0 := by
      have : y.flag ||| en.flag = 0 := by rw [← e3] at hf'; exact hf'
      exact (Nat.or_eq_zero_iff.1 this).2
    obtain ⟨Y, hY, hYe⟩ := hF _ _ en hen hrf
    obtain ⟨hrl, hrk⟩ := found_inside h hk1 hen
    obtain ⟨Z, hZ, hZe⟩ : Spec.ContinuesWell lay mod s.state s.l s.k := by
      rcases hJ with ⟨rfl, g⟩ | g
      · exact absurd ((shocksAt_iff sl _ _).1 he).symm g
      · exact g
    obtain ⟨hel, hek⟩ := elapsed_le hl hk 1
    have hZY := C174_one_path h hlag hself hP hel hek hrl hrk hZ hY hZe hYe
    rw [hZY] at hZ
    have hx0 : (st :: ys.map (·.state))[j]? = some s.state := by
      have : ((⟨st, 0, 0, 0, false⟩ : IrfState z p K) :: ys).map (·.state) = st :: ys.map (·.state) := rfl
      rw [← this, List.getElem?_map, hy0, e1]
      rfl
    obtain ⟨a1, a2⟩ := spells_of_path h hlag hself hl1 hrl hrk hel hek (found_zero h hk1 hen) (elapsed_zero_spell h00) hY hZ
      (hoff j hj he _ hx0 en Y hen hY)
    exact hne (Prod.ext a1 a2)
  have hm : ∀ (i : Nat) (x : IrfState z p K), xs[i]? = some x → x.mult = false := by
    intro i x hi
    have hiT : i < T := by have := (List.getElem?_eq_some_iff.1 hi).1; omega
    rw [← Bool.not_eq_true, C175_reported_iff h hk1 hsk hx i x hi]
    rintro ⟨j, hj, g⟩
    exact hnd j ⟨by omega, g⟩
  obtain ⟨ys', hy', hall⟩ := C175_silent h hk1 hsk hx fun x hlast => by
    obtain ⟨i, hi⟩ := List.getElem?_of_mem (List.mem_of_getLast? hlast)
    exact hm i x hi
  obtain rfl : ys = ys' := Except.ok.inj (hy.symm.trans hy')
  refine ⟨xs, hx, fun x hmem => ?_, ?_⟩
  · obtain ⟨i, hi⟩ := List.getElem?_of_mem hmem
    refine ⟨hm i x hi, ?_⟩
    obtain ⟨hi', e⟩ := List.getElem?_eq_some_iff.1 hi
    by_contra hn
    have := (List.forall₂_iff_get.1 hall).2 i hi' (by omega)
    simp only [List.get_eq_getElem, e] at this
    exact this.2.2.2 hn (hf _ (List.getElem_mem _))
  · refine List.ext_getElem (by rw [List.length_map, List.length_map]; omega) fun i h1 h2 => ?_
    rw [List.length_map] at h1 h2
    have := (List.forall₂_iff_get.1 hall).2 i h1 h2
    simp only [List.get_eq_getElem] at this
    rw [List.getElem_map, List.getElem_map, this.1, this.2.1, this.2.2.1]

end Yaml

namespace Ex17

variable {b : Rat} [hneg : Fact (b < 0)] {lMax kMax : Nat} {sched : Nat → List Nat} {mod : Model (Fin 1) (Fin 1) (Fin 1) (Fin 1) Rat}

theorem rule_ne {l k : Nat} (h : Succeeded (layB b) orc lMax kMax sched mod) (hl : l ≤ lMax) (hk : k ≤ kMax) {st : Fin 1 ⊕ Fin 1 → Rat} {eps : Fin 1 → Rat}
    {Y : Nat → Fin 1 ⊕ Fin 1 → Rat} (hY : ExpectedPath mod l k st eps Y) {t : Nat} (hb : base b st eps (Spec.declared (layB b) Y) t ≠ 8/3 * b) :
    Spec.ruleAt (Spec.asSolved (declB b)) (lagVal (layB b) st) eps (Spec.declared (layB b) Y) t ≠ (declB b).xbar := by
  have hx : (declB b).xbar = b := rfl
  rw [rule_eq, hx]
  intro g
  obtain ⟨a1, a2⟩ := rule_le_iff h hl hk hY t
  have h1 := a1.1 g.le
  have h2 := (not_congr a2).1 (by rw [g]; exact lt_irrefl _)
  exact hb (le_antisymm h1 (not_lt.1 h2))

/-- above the point at which the constraint begins to bind -/
theorem off_above (h : Succeeded (layB b) orc lMax kMax sched mod) (hk1 : 1 ≤ kMax) {st : Fin 1 ⊕ Fin 1 → Rat} (hs : 8/3 * b < st (.inr 0)) :
    Spec.OffTheEdge (layB b) mod st := by
  intro r Y hr hY t
  obtain ⟨hl, hk⟩ := found_inside h hk1 hr
  refine rule_ne h hl hk hY (ne_of_gt ?_)
  have := base_above h hl hk hY (s := 0) (by rw [base_zero]; simpa using hs) t
  rwa [Nat.zero_add] at this

/-- one binding period ahead -/
theorem off_one (h : Succeeded (layB b) orc lMax kMax sched mod) (hk1 : 1 ≤ kMax) (hL : lMax + 1 ≤ 999) {st : Fin 1 ⊕ Fin 1 → Rat} (h1 : st (.inr 0) < 8/3 * b)
    (h2 : 4 * b < st (.inr 0)) : Spec.OffTheEdge (layB b) mod st := by
  intro r Y hr hY t
  obtain ⟨r', g1, -, g3, g4, -⟩ := run h (k := 1) le_rfl hk1 hL (st := st) (eps := 0) (by simpa using h1) (by simp; linarith)
  obtain rfl : r = r' := Except.ok.inj (hr.symm.trans g1)
  obtain ⟨hl, hk⟩ := found_inside h hk1 hr
  refine rule_ne h hl hk hY ?_
  rw [g3, g4] at hY
  rcases t with _ | t
  · rw [base_zero]
    simpa using h1.ne
  · refine ne_of_gt ?_
    have := base_above h (Nat.zero_le _) hk1 hY (s := 1) (by rw [base_in_spell h hk1 hY 1 le_rfl]; simp; linarith) t
    rwa [Nat.add_comm] at this

/-- a shock in period 1 -/
def lateShock : List (ShockSpec (Fin 1) Rat) := [(0, -5, 1)]

theorem lateShock_at (t : Nat) : shkVec lateShock t 0 = if t = 1 then -5 else 0 := by
  simp only [shkVec, lateShock, List.foldl]
  rcases Nat.lt_or_ge t 2 with e | e
  · interval_cases t <;> decide +kernel
  · rw [if_neg (by omega), if_neg (by omega)]
    rfl

end Ex17

/-- **C175**: the hypotheses of `C175_unique_silent` are met: a shock of `-5` in period 1, after which the constraint binds for two periods, over any horizon. -/
theorem C175_unique_silent_met (lMax kMax : Nat) (hl : 1 ≤ lMax) (hk : 2 ≤ kMax) (hL : lMax + 1 ≤ 999) : ∃ mod,
    Succeeded Ex17.lay Ex17.orc lMax kMax (serial kMax) mod ∧ Spec.LagsNotExpected Ex17.decl ∧ Ex17.decl.rb Ex17.decl.cvar ≠ 1 ∧
    Spec.FlagMeansEquilibrium Ex17.lay mod ∧ Spec.NoReversalOf Ex17.lay mod ∧ Spec.ContinuesWell Ex17.lay mod 0 0 0 ∧ (∃ s ∈ Ex17.lateShock, s.2.2 ≠ 0) ∧
    (∃ r, tFunc mod 0 (fun _ => -5) .none false = .ok r ∧ r.flag = 0 ∧ r.l = 0 ∧ r.k = 2) ∧
    ∀ T, ∃ ys, irfs mod ⟨Ex17.lateShock, .none, false, false⟩ 0 T = .ok ys ∧ ys.length = T ∧ (∀ y ∈ ys, y.flag = 0) ∧
      ∀ t < T, Spec.ShocksAt Ex17.lateShock t 0 → ∀ x0, ((0 : Fin 1 ⊕ Fin 1 → Rat) :: ys.map (·.state))[t]? = some x0 → Spec.OffTheEdge Ex17.lay mod x0 := by
  obtain ⟨mod, h⟩ := Ex17.succeeds (b := -1) lMax kMax (fun _ _ => List.Perm.refl _)
  obtain ⟨r, a1, a2, a3, a4, a5⟩ := Ex17.run h (k := 2) (by omega) hk hL (st := 0) (eps := fun _ => -5) (by norm_num) (by norm_num)
  have hk1 : 1 ≤ kMax := by omega
  have hF := Ex17.flagMeansEquilibrium h hk1
  refine ⟨mod, h, Ex17.lagsNotExpected, Ex17.self_ne, hF, Ex17.noReversalOf, continues_at_rest h (by decide +kernel) hF,
    ⟨_, List.mem_singleton_self _, by decide⟩, ⟨r, a1, a2, a3, a4⟩, fun T => ?_⟩
  let I : Nat → IrfState (Fin 1) (Fin 1) Rat → Prop := fun t s =>
    s.flag = 0 ∧ (t ≤ 1 → s.state = 0) ∧ (t = 2 → s.state (.inr 0) = -11/3) ∧ (3 ≤ t → -7/3 ≤ s.state (.inr 0))
  have hz : ∀ t, t ≠ 1 → shkVec Ex17.lateShock t = 0 := fun t ht => by
    funext i
    rw [Subsingleton.elim i 0, Ex17.lateShock_at, if_neg ht]
    rfl
  have hI : ∀ t s, I t s → ∃ s', irfStep mod ⟨Ex17.lateShock, .none, false, false⟩ s t = .ok s' ∧ I (t + 1) s' := by
    rintro t s ⟨i1, i2, i3, i4⟩
    rw [irfStep_free (.inl rfl)]
    rcases t with _ | _ | _ | t
    · obtain ⟨r', h1, h2, h3, h4, h5⟩ := C10_steady_state_fixed_point h (by decide +kernel) false
      rw [hz 0 (by omega), i2 (by omega), h1]
      exact ⟨_, rfl, by simp only [i1, h5, Nat.or_zero], fun _ => h2, fun g => by omega, fun g => by omega⟩
    · have : shkVec Ex17.lateShock 1 = fun _ => -5 := by
        funext i
        rw [Subsingleton.elim i 0, Ex17.lateShock_at, if_pos rfl]
      rw [i2 (by omega), this, a1]
      exact ⟨_, rfl, by simp only [i1, a2, Nat.or_zero], fun g => by omega, fun _ => a5.trans (by norm_num), fun g => by omega⟩
    · have i5 := i3 rfl
      obtain ⟨r', h1, h2, -, -, h5⟩ := Ex17.run h (k := 1) le_rfl hk1 hL (st := s.state) (eps := 0) (by rw [i5]; norm_num) (by rw [i5]; norm_num)
      rw [hz _ (by omega), h1]
      exact ⟨_, rfl, by simp only [i1, h2, Nat.or_zero], fun g => by omega, fun g => by omega, fun _ => (h5.trans (by rw [i5]; norm_num : _ = (-7/3 : Rat))).ge⟩
    · have i5 := i4 (by omega)
      have hkq : (0 : Rat) ≤ kMax := Nat.cast_nonneg _
      obtain ⟨r', b1, b2⟩ := (Ex17.no_error_iff h hl hk1 hL s.state 0).2 (by simp; linarith)
      rw [hz _ (by omega), b1]
      exact ⟨_, rfl, by simp only [i1, b2, Nat.or_zero], fun g => by omega, fun g => by omega,
        fun _ => Ex17.state_ge h hk1 b1 (by norm_num) (by simpa using i5)⟩
  obtain ⟨ys, hy⟩ := irfRun_exists (m := mod) (a := ⟨Ex17.lateShock, .none, false, false⟩) I hI T 0 ⟨0, 0, 0, 0, false⟩
    ⟨rfl, fun _ => rfl, fun g => by omega, fun g => by omega⟩
  obtain ⟨hlen, h2⟩ := irfRun_steps hy
  have hall : ∀ t s, ((⟨0, 0, 0, 0, false⟩ : IrfState (Fin 1) (Fin 1) Rat) :: ys)[t]? = some s → I t s := by
    intro t
    induction t with
    | zero =>
      intro s hs
      cases hs
      exact ⟨rfl, fun _ => rfl, fun g => by omega, fun g => by omega⟩
    | succ t ih =>
      intro s hs
      rw [List.getElem?_cons_succ] at hs
      have ht : t < ys.length := (List.getElem?_eq_some_iff.1 hs).1
      obtain ⟨s0, hs0⟩ : ∃ s0, ((⟨0, 0, 0, 0, false⟩ : IrfState (Fin 1) (Fin 1) Rat) :: ys)[t]? = some s0 :=
        ⟨_, List.getElem?_eq_getElem (by rw [List.length_cons]; omega)⟩
      have := h2 t s0 s hs0 hs
      rw [Nat.zero_add] at this
      obtain ⟨s', g1, g2⟩ := hI t s0 (ih s0 hs0)
      rw [g1] at this
      cases this
      exact g2
  refine ⟨ys, hy, hlen, fun y hm => ?_, fun t ht he x0 hx0 => ?_⟩
  · obtain ⟨i, hi⟩ := List.getElem?_of_mem hm
    exact (hall (i + 1) y (by rw [List.getElem?_cons_succ]; exact hi)).1
  · obtain ⟨s0, hs0⟩ : ∃ s0, ((⟨0, 0, 0, 0, false⟩ : IrfState (Fin 1) (Fin 1) Rat) :: ys)[t]? = some s0 :=
      ⟨_, List.getElem?_eq_getElem (by rw [List.length_cons]; omega)⟩
    have e : ((⟨0, 0, 0, 0, false⟩ : IrfState (Fin 1) (Fin 1) Rat) :: ys).map (·.state) = 0 :: ys.map (·.state) := rfl
    rw [← e, List.getElem?_map, hs0] at hx0
    obtain rfl : s0.state = x0 := Option.some.inj hx0
    obtain ⟨-, i2, i3, i4⟩ := hall t s0 hs0
    rcases t with _ | _ | _ | t
    · rw [i2 (by omega)]
      exact Ex17.off_above h hk1 (by norm_num)
    · have := congrFun ((shocksAt_iff _ _ _).1 he) 0
      rw [Ex17.lateShock_at] at this
      norm_num at this
    · have i5 := i3 rfl
      exact Ex17.off_one h hk1 hL (by rw [i5]; norm_num) (by rw [i5]; norm_num)
    · have i5 := i4 (by omega)
      exact Ex17.off_above h hk1 (by linarith)

namespace Ex17

variable {b : Rat} [hneg : Fact (b < 0)] {lMax kMax : Nat} {sched : Nat → List Nat} {mod : Model (Fin 1) (Fin 1) (Fin 1) (Fin 1) Rat}

/-- a spell of one period, at its edges, too -/
theorem edge_one (h : Succeeded (layB b) orc lMax kMax sched mod) (hl1 : 1 ≤ lMax) (hk1 : 1 ≤ kMax) (hL : lMax + 1 ≤ 999) {st : Fin 1 ⊕ Fin 1 → Rat}
    {eps : Fin 1 → Rat} (h1 : 4 * b ≤ st (.inr 0) + eps 0) (h2 : st (.inr 0) + eps 0 ≤ 8/3 * b) :
    ∃ r, tFunc mod st eps .none false = .ok r ∧ r.flag = 0 ∧ r.l = 0 ∧ r.k = 1 ∧ r.state (.inr 0) = st (.inr 0) + eps 0 + -4/3 * b := by
  have hn := hneg.out
  have hx : (declB b).xbar = b := rfl
  have hkq : 4/3 * b * (kMax : Rat) ≤ 4/3 * b := by
    have : (1 : Rat) ≤ kMax := by exact_mod_cast hk1
    nlinarith
  obtain ⟨r, hr, hf⟩ := (no_error_iff h hl1 hk1 hL st eps).2 (by linarith)
  obtain ⟨hl, hk⟩ := found_inside h hk1 hr
  obtain ⟨X, hX⟩ := expectedPath_exists h hl hk st eps
  obtain ⟨p1, p2⟩ := reported_passes h hk1 lagsNotExpected self_ne hr hf hX
  have hk0 : 1 ≤ r.k := by
    rcases p2 with ⟨-, p3⟩ | p3
    · have := p3 0 (by omega)
      rw [rule_eq, hx, ← not_le, (rule_le_iff h hl hk hX 0).1, base_zero] at this
      exact absurd h2 this
    · exact p3.1
  have hl0 : r.l = 0 := (passes_equilibrium h hl hk hX p2).1 hk0
  obtain ⟨Y, hY⟩ := expectedPath_exists h (Nat.zero_le lMax) hk1 st eps
  have hp : Spec.PassesTests (declB b).xbar (Spec.ruleAt (Spec.asSolved (declB b)) (lagVal (layB b) st) eps (Spec.declared (layB b) Y)) (lMax + 1) 0 1 := by
    refine .inr ⟨le_rfl, fun g => by omega, fun g => by omega, ?_, fun g => by omega, ?_⟩
    · rw [rule_eq, hx, (rule_le_iff h (Nat.zero_le _) hk1 hY 0).1, base_zero]
      exact h2
    · rw [rule_eq, hx, ← not_lt, (rule_le_iff h (Nat.zero_le _) hk1 hY _).2, Nat.zero_add, base_in_spell h hk1 hY 1 le_rfl, not_lt]
      push_cast
      linarith
  have hlex := reported_first h lagsNotExpected self_ne hk1 hL hr hf hk0 (Nat.zero_le _) hk1 le_rfl hY hp
  have hk2 : r.k = 1 := by
    by_contra g
    exact hlex (.inr ⟨hl0.symm, show 1 < r.k by omega⟩)
  refine ⟨r, hr, hf, hl0, hk2, ?_⟩
  rw [first_reported h hk1 hr hX, ← base_zero (b := b) st eps (Spec.declared (layB b) X),
    ← path_binds h hl hk hX (s := 0) (by unfold BindsAt; omega)]
  exact (val_y (X 0)).symm

/-- a shock which puts the end of the spell exactly at the bound, and a later one -/
def edgeShocks : List (ShockSpec (Fin 1) Rat) := [(0, -4, 0), (0, -1, 2)]

end Ex17

/-- **C175** (fails in general): a report although equilibria are unique.  After a shock of `-4` the constraint binds for one period, and then its equation gives the bound exactly; the
spell that is left is `(0,0)`, the search, whose first test is strict, gives `(0,1)`.  The two spells have the same path. -/
theorem C175_edge_refuted (lMax kMax : Nat) (hl : 1 ≤ lMax) (hk : 1 ≤ kMax) (hL : lMax + 1 ≤ 999) : ∃ mod,
    Succeeded Ex17.lay Ex17.orc lMax kMax (serial kMax) mod ∧ Spec.FlagMeansEquilibrium Ex17.lay mod ∧ Spec.NoReversalOf Ex17.lay mod ∧
    ∃ s0 s1, irfs mod ⟨Ex17.edgeShocks, .none, true, false⟩ 0 2 = .ok [s0, s1] ∧ s1.mult = true ∧
      ∀ (l k l' k' : Nat) (X X' : Nat → Fin 1 ⊕ Fin 1 → Rat), l ≤ lMax → k ≤ kMax → l' ≤ lMax → k' ≤ kMax →
        ExpectedPath mod l k s0.state 0 X → ExpectedPath mod l' k' s0.state 0 X' →
        Spec.RuleEquilibrium (Spec.asSolved Ex17.decl) (lagVal Ex17.lay s0.state) 0 (Spec.declared Ex17.lay X) →
        Spec.RuleEquilibrium (Spec.asSolved Ex17.decl) (lagVal Ex17.lay s0.state) 0 (Spec.declared Ex17.lay X') → X = X' := by
  obtain ⟨mod, h⟩ := Ex17.succeeds (b := -1) lMax kMax (fun _ _ => List.Perm.refl _)
  refine ⟨mod, h, Ex17.flagMeansEquilibrium h hk, Ex17.noReversalOf, ?_⟩
  have hper : ∃ s ∈ Ex17.edgeShocks, s.2.2 ≠ 0 := ⟨_, List.mem_cons_of_mem _ (List.mem_singleton_self _), by decide⟩
  obtain ⟨xs, hx, hlen, hstep⟩ := C18_spell_continued_partial h hk (.inl rfl) Ex17.edgeShocks hper 0 2
  match xs, hlen with
  | [s0, s1], _ =>
    have e0 : shkVec Ex17.edgeShocks 0 = fun _ => -4 := by
      funext i
      rw [Subsingleton.elim i 0]
      decide +kernel
    have e1 : shkVec Ex17.edgeShocks 1 = 0 := by
      funext i
      rw [Subsingleton.elim i 0]
      decide +kernel
    obtain ⟨r, g1, g2, g3, g4⟩ := (hstep 0 _ s0 rfl rfl).2 (by
      rw [e0]
      intro g
      have := congrFun g 0
      norm_num at this)
    obtain ⟨r', a1, a2, a3, a4, a5⟩ := Ex17.edge_one h hl hk hL (st := 0) (eps := fun _ => -4) (by norm_num) (by norm_num)
    rw [e0] at g1
    obtain rfl : r = r' := Except.ok.inj (g1.symm.trans a1)
    have hs : s0.state (.inr 0) = -8/3 := by rw [g2, a5]; norm_num
    obtain ⟨en, b1, b2, b3, b4, b5⟩ := Ex17.edge_one h hl hk hL (st := s0.state) (eps := 0) (by rw [hs]; norm_num) (by rw [hs]; norm_num)
    refine ⟨s0, s1, hx, ?_, fun l k l' k' X X' c1 c2 c3 c4 hX hX' hXe hXe' =>
      C174_one_path h Ex17.lagsNotExpected Ex17.self_ne Ex17.noReversalOf c1 c2 c3 c4 hX hX' hXe hXe'⟩
    rw [C175_reported_iff h hk (.inl rfl) hx 1 s1 rfl]
    refine ⟨1, le_rfl, hper, (shocksAt_iff _ _ _).2 e1.symm, s0, en, rfl, b1, ?_⟩
    rw [b3, b4, g3, g4, a3, a4]
    decide

end Pydsge
