import Verif.Props.AnyTables

/-!
# C163: exactly when `t_func` reports an error

engine.py:267-330: the flag that `find_lk` returns, compared with the equilibria of the solved model.
-/

set_option autoImplicit false
set_option linter.unusedSectionVars false
set_option linter.unusedSimpArgs false

namespace Pydsge

open Matrix Pydsge.Engine Pydsge.Spec Pydsge.Tools Pydsge.GenSys

variable {E ν ε o K : Type} [Fintype E] [Fintype ν] [Fintype ε] [Fintype o]
  [DecidableEq E] [DecidableEq ν] [DecidableEq ε] [Field K] [LinearOrder K] [IsStrictOrderedRing K]
variable {H z p : Type} [DecidableEq H] [Fintype H] [Fintype z] [Fintype p] [DecidableEq z] [DecidableEq p]
section Yaml
variable {D : Declared E ν ε K} {Z0 : Matrix o ν K} {Z1 : o → K} {tol : K} [DecidablePred (inall tol (yaml D Z0 Z1))]
  {lay : Layout tol (yaml D Z0 Z1) H z p} {orc : Oracle (Rows E H ε) (z ⊕ ε) p K} {lMax kMax lMax' kMax' : Nat}
  {sched sched' : Nat → List Nat} {mod mod' : Model z ε p o K}

/-- The solved model has an equilibrium with one spell of at most `kMax` periods that begins after at most `lMax` periods, and that ends on the linear solution. -/
def Spec.HasEquilibrium (lay : Layout tol (yaml D Z0 Z1) H z p) (mod : Model z ε p o K) (lMax kMax : Nat) (st : p ⊕ z → K) (eps : ε → K) : Prop :=
  ∃ x l k, l ≤ lMax ∧ k ≤ kMax ∧ Spec.EndsInEquilibrium lay mod st eps x ∧
    Spec.OneSpellOf D.xbar (Spec.ruleAt (Spec.asSolved D) (lagVal lay st) eps x) l k

section
variable (h : Succeeded lay orc lMax kMax sched mod) (hl1 : 1 ≤ lMax) (hk1 : 1 ≤ kMax) (hL : lMax + 1 ≤ 999) (hlag : Spec.LagsNotExpected D)
  (hself : D.rb D.cvar ≠ 1)
include h hl1 hk1 hL hlag hself

/-- **C163**: where what is reported without an error is an equilibrium (C193), `t_func` reports an error if and only if there is no equilibrium with one spell inside the tables. -/
theorem C163_exact (hF : Spec.FlagMeansEquilibrium lay mod) {st : p ⊕ z → K} {eps : ε → K} {r : Step z p K} (hr : tFunc mod st eps .none false = .ok r) :
    r.flag = 0 ↔ Spec.HasEquilibrium lay mod lMax kMax st eps := by
  constructor
  · intro hf
    obtain ⟨hl, hk⟩ := found_inside h hk1 hr
    obtain ⟨x, hx, -, ho⟩ := reported_state h hk1 hlag hself hF hr hf
    exact ⟨x, r.l, r.k, hl, hk, hx, ho⟩
  · rintro ⟨x, l, k, hl, hk, ⟨hx, n, hn⟩, ho⟩
    obtain ⟨r', hr', hf'⟩ := C173_found h hk1 hl1 hL hlag hself hl hk hx ho hn
    cases Except.ok.inj (hr.symm.trans hr')
    exact hf'

/-- **C163**: where equilibria are unique too, the reported state is the first state of every equilibrium with any number of spells, as soon as no error is reported. -/
theorem C163_state (hF : Spec.FlagMeansEquilibrium lay mod) (hP : Spec.NoReversalOf lay mod) {st : p ⊕ z → K} {eps : ε → K} {x : Nat → ν → K}
    (hx : Spec.EndsInEquilibrium lay mod st eps x) {r : Step z p K} (hr : tFunc mod st eps .none false = .ok r) :
    (r.flag = 0 ↔ ∃ l k, l ≤ lMax ∧ k ≤ kMax ∧ Spec.OneSpellOf D.xbar (Spec.ruleAt (Spec.asSolved D) (lagVal lay st) eps x) l k) ∧
      (r.flag = 0 → r.state = stateOf lay (x 0)) := by
  have key : ∀ {y}, Spec.EndsInEquilibrium lay mod st eps y → y = x := by
    rintro y ⟨hy, n', hn'⟩
    obtain ⟨hx, n, hn⟩ := hx
    exact C173_unique h hP hy hx hn' hn
  refine ⟨?_, fun hf => ?_⟩
  · rw [C163_exact h hl1 hk1 hL hlag hself hF hr]
    constructor
    · rintro ⟨y, l, k, hl, hk, hy, ho⟩
      rw [key hy] at ho
      exact ⟨l, k, hl, hk, ho⟩
    · rintro ⟨l, k, hl, hk, ho⟩
      exact ⟨x, l, k, hl, hk, hx, ho⟩
  · obtain ⟨y, hy, hs, -⟩ := reported_state h hk1 hlag hself hF hr hf
    rw [hs, key hy]

end

/-- **C163**: where what smaller tables report without an error is an equilibrium, larger tables report no error either, whether equilibria are unique or not. -/
theorem C163_larger (h : Succeeded lay orc lMax kMax sched mod) (h' : Succeeded lay orc lMax' kMax' sched' mod') (hk1 : 1 ≤ kMax)
    (hlag : Spec.LagsNotExpected D) (hself : D.rb D.cvar ≠ 1) (hF : Spec.FlagMeansEquilibrium lay mod) (hl1' : 1 ≤ lMax') (hL : lMax ≤ lMax')
    (hK : kMax ≤ kMax') (hL' : lMax' + 1 ≤ 999) {st : p ⊕ z → K} {eps : ε → K} {r : Step z p K} (hr : tFunc mod st eps .none false = .ok r)
    (hf : r.flag = 0) : ∃ r', tFunc mod' st eps .none false = .ok r' ∧ r'.flag = 0 := by
  obtain ⟨x, ⟨hx, n, hn⟩, -, ho⟩ := reported_state h hk1 hlag hself hF hr hf
  obtain ⟨hl, hk⟩ := found_inside h hk1 hr
  exact C173_found h' (hk1.trans hK) hl1' hL' hlag hself (hl.trans hL) (hk.trans hK) hx ho (joins_bounds h h' hlag hn)

end Yaml

/-- **C163**, hypotheses of the exact condition, with both outcomes: after the shock `-5` the constraint binds for two periods; `k_max = 2` has room for them, `k_max = 1` has not. -/
theorem C163_exact_hypotheses_met : ∃ mod mod', Succeeded Ex17.lay Ex17.orc 3 1 (serial 1) mod ∧ Succeeded Ex17.lay Ex17.orc 3 2 (serial 2) mod' ∧
    Spec.LagsNotExpected Ex17.decl ∧ Ex17.decl.rb Ex17.decl.cvar ≠ 1 ∧ Spec.NoReversalOf Ex17.lay mod ∧
    Spec.FlagMeansEquilibrium Ex17.lay mod ∧ Spec.FlagMeansEquilibrium Ex17.lay mod' ∧
    (∃ r, tFunc mod' 0 (fun _ => -5) .none false = .ok r ∧ r.flag = 0 ∧ r.k = 2) ∧
    ∃ r, tFunc mod 0 (fun _ => -5) .none false = .ok r ∧ r.flag ≠ 0 := by
  obtain ⟨mod, h⟩ := Ex17.succeeds (b := -1) 3 1 (fun _ _ => List.Perm.refl _)
  obtain ⟨mod', h'⟩ := Ex17.succeeds (b := -1) 3 2 (fun _ _ => List.Perm.refl _)
  obtain ⟨r', d1, d2, d3, d4, -⟩ := Ex17.run h' (k := 2) (by omega) (by omega) (by omega) (st := 0) (eps := fun _ => -5) (by norm_num) (by norm_num)
  have hF := Ex17.flagMeansEquilibrium h (by omega)
  have hF' := Ex17.flagMeansEquilibrium h' (by omega)
  have hlag := Ex17.lagsNotExpected (b := -1)
  have hself := Ex17.self_ne (b := -1)
  refine ⟨mod, mod', h, h', hlag, hself, Ex17.noReversalOf, hF, hF', ⟨r', d1, d2, d4⟩, ?_⟩
  obtain ⟨r, hr, -⟩ := C173_flag_iff h (by omega) (by omega) hlag hself 0 (fun _ => -5)
  refine ⟨r, hr, fun hf => ?_⟩
  obtain ⟨hl, hk⟩ := found_inside h (by omega) hr
  obtain ⟨x, ⟨hx, n, hn⟩, -, ho⟩ := reported_state h (by omega) hlag hself hF hr hf
  obtain ⟨hl', hk'⟩ := found_inside h' (by omega) d1
  obtain ⟨X, hX, hXe⟩ := hF' _ _ _ d1 d2
  obtain ⟨y, hy1, hy2, hy3⟩ := (C148_characterisation h' hlag hself hl' hk' _ _ X).1 hX
  have hdecl : Spec.declared (Ex17.layB (-1)) X = y := by
    funext s v
    unfold Spec.declared
    rw [hy1, val_stateOf (Ex17.layB (-1)) h'.square]
    rfl
  have e : x = Spec.declared (Ex17.layB (-1)) X :=
    C173_unique h' Ex17.noReversalOf hx hXe (joins_bounds h h' hlag hn) (hdecl.symm ▸ hy3)
  subst e
  have hxb : (Ex17.declB (-1)).xbar = -1 := rfl
  have b0 := Ex17.base_zero (b := -1) 0 (fun _ => -5) (Spec.declared (Ex17.layB (-1)) X)
  have b1 := Ex17.base_succ (b := -1) 0 (fun _ => -5) (Spec.declared (Ex17.layB (-1)) X) 0
  rw [Ex17.path_binds h' hl' hk' hX (by unfold BindsAt; omega), b0] at b1
  have c0 := ho.only 0 (by
    rw [Ex17.rule_eq, hxb, (Ex17.rule_le_iff h' hl' hk' hX 0).2, b0]
    norm_num)
  have c1 := ho.only 1 (by
    rw [Ex17.rule_eq, hxb, (Ex17.rule_le_iff h' hl' hk' hX 1).2, b1]
    norm_num)
  omega

end Pydsge
