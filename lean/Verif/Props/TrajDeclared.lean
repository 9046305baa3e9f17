import Verif.Props.TrajArgs
import Verif.Props.Traj
import Verif.Props.SilentUnique

/-!
# C12, C65: `traj` and `k_map` in terms of the declared model

tools.py:488-560 (`traj`, `k_map`), engine.py (`preprocess_tmats_jit`).  The values are those of the constraint equation along expected paths.
-/

set_option autoImplicit false
set_option linter.unusedSectionVars false
set_option linter.unusedSimpArgs false

namespace Pydsge

open Matrix Pydsge.Engine Pydsge.Spec Pydsge.Tools Pydsge.GenSys

variable {E ν ε o K : Type} [Fintype E] [Fintype ν] [Fintype ε] [Fintype o]
  [DecidableEq E] [DecidableEq ν] [DecidableEq ε] [Field K] [LinearOrder K] [IsStrictOrderedRing K]
variable {H z p : Type} [DecidableEq H] [Fintype H] [Fintype z] [Fintype p] [DecidableEq z] [DecidableEq p]
section Yaml
variable {D : Declared E ν ε K} {Z0 : Matrix o ν K} {Z1 : o → K} {tol : K} [DecidablePred (inall tol (yaml D Z0 Z1))]
  {lay : Layout tol (yaml D Z0 Z1) H z p} {orc : Oracle (Rows E H ε) (z ⊕ ε) p K} {lMax kMax : Nat}
  {sched sched' : Nat → List Nat} {mod : Model z ε p o K}

/-- The values along the path expected under a spell are those of the constraint equation. -/
theorem spell_values (h : Succeeded lay orc lMax kMax sched mod) (hlag : Spec.LagsNotExpected D) (hself : D.rb D.cvar ≠ 1) {l k : Nat} (hl : l ≤ lMax) (hk : k ≤ kMax)
    {st : p ⊕ z → K} {eps : ε → K} {Y : Nat → p ⊕ z → K} (hY : ExpectedPath mod l k st eps Y) :
    ∃ Q P, SpellPath mod.tables mod.xbar l k Q P ∧ Q 0 = q0Of st eps ∧
      ∀ s, cnstValue mod.ff Q P s = Spec.ruleAt (Spec.asSolved D) (lagVal lay st) eps (Spec.declared lay Y) s := by
  obtain ⟨c, hm⟩ := genSys_ok h.perm h.gen
  obtain ⟨M', hS⟩ := hm.eng
  have hf := noLagFwd_of_not_expected (Z0 := Z0) (Z1 := Z1) hlag
  have hYs : Y = xPath c l k (q0Of st eps) := funext ((expectedPath_iff hm h.orc h.noTiny h.square h.states hf hl hk st eps Y).1 hY)
  have hQP := spellPath_exists hS mod.xbar hl hk (q0Of st eps)
  refine ⟨_, _, hQP, rfl, fun s => ?_⟩
  rw [cnstValue_eq hm hl hk hQP, hYs]
  exact pathValue_rule h hm hlag hself hl hk st eps s

/-- **C12** in terms of the declared model: `traj` returns the values of the constraint equation along the path that is expected under the spell `(l,k-1)`, or `(l,k_max)` if `k = 0`. -/
theorem C12_declared (h : Succeeded lay orc lMax kMax sched mod) (hlag : Spec.LagsNotExpected D) (hself : D.rb D.cvar ≠ 1)
    (hs' : ∀ l < lMax + 1, (sched' l).Perm (List.range (kMax + 1))) {tt : TTab (z ⊕ ε) K} (ht : newTmats mod sched' = .ok tt)
    (st : p ⊕ z → K) (eps : ε → K) (lArg kArg : Option Int) {l k : Nat} (hl : l ≤ lMax) (hk : k ≤ kMax)
    (hlk : trajLK mod (q0Of st eps) lArg kArg = .ok ((l : Int), (k : Int))) {Y : Nat → p ⊕ z → K}
    (hY : ExpectedPath mod l (if k = 0 then kMax else k - 1) st eps Y) :
    ∃ vals, traj mod tt (q0Of st eps) lArg kArg = .ok (((l : Int), (k : Int)), vals) ∧ vals.length = lMax + kMax + 2 ∧
      ∀ s < lMax + kMax + 2, vals[s]? = some (Spec.ruleAt (Spec.asSolved D) (lagVal lay st) eps (Spec.declared lay Y) s) := by
  obtain ⟨vals, h1, h2, h3⟩ := C12_traj_shifted_partial h hs' ht (q0Of st eps) lArg kArg hl hk hlk
  obtain ⟨Q, P, g1, g2, g3⟩ := spell_values h hlag hself hl (by split_ifs <;> omega) hY
  exact ⟨vals, h1, h2, fun s hs => by rw [h3 s Q P hs g1 g2, g3]⟩

/-- **C12**: `traj` is right about the spell `(l,k)`, `k ≥ 1`, if in the last period of that spell the constraint equation gives the bound exactly. -/
theorem C12_edge (h : Succeeded lay orc lMax kMax sched mod) (hl1 : 1 ≤ lMax) (hlag : Spec.LagsNotExpected D) (hself : D.rb D.cvar ≠ 1)
    (hs' : ∀ l < lMax + 1, (sched' l).Perm (List.range (kMax + 1))) {tt : TTab (z ⊕ ε) K} (ht : newTmats mod sched' = .ok tt)
    (st : p ⊕ z → K) (eps : ε → K) (lArg kArg : Option Int) {l k : Nat} (hl : l ≤ lMax) (hk : k ≤ kMax) (hk0 : 1 ≤ k)
    (hlk : trajLK mod (q0Of st eps) lArg kArg = .ok ((l : Int), (k : Int))) {X : Nat → p ⊕ z → K} (hX : ExpectedPath mod l k st eps X)
    (hedge : Spec.ruleAt (Spec.asSolved D) (lagVal lay st) eps (Spec.declared lay X) (l + k - 1) = D.xbar) :
    ∃ vals, traj mod tt (q0Of st eps) lArg kArg = .ok (((l : Int), (k : Int)), vals) ∧ vals.length = lMax + kMax + 2 ∧
      ∀ s < lMax + kMax + 2, vals[s]? = some (Spec.ruleAt (Spec.asSolved D) (lagVal lay st) eps (Spec.declared lay X) s) := by
  refine C12_declared h hlag hself hs' ht st eps lArg kArg hl hk hlk ?_
  rw [if_neg (by omega)]
  refine equilibrium_respell h hlag hself hl1 hl hk hX hl (by omega) fun s hs => ?_
  have e : s = l + k - 1 := by unfold BindsAt at hs; omega
  rw [e]
  exact ⟨(C148_paths_solve h hlag hself hl hk st eps X hX).binding _ (by unfold BindsAt; omega), hedge⟩

/-- **C12**: without arguments, at an equilibrium with a spell of two and more periods, `traj` describes another path than the one that is expected. -/
theorem C12_other_path (h : Succeeded lay orc lMax kMax sched mod) (hk1 : 1 ≤ kMax) (hl1 : 1 ≤ lMax) (hL : lMax + 1 ≤ 999) (hlag : Spec.LagsNotExpected D)
    (hself : D.rb D.cvar ≠ 1) {st : p ⊕ z → K} {eps : ε → K} {r : Step z p K} (hr : tFunc mod st eps .none false = .ok r) (hf : r.flag = 0)
    {X Y : Nat → p ⊕ z → K} (hX : ExpectedPath mod r.l r.k st eps X)
    (hE : Spec.RuleEquilibrium (Spec.asSolved D) (lagVal lay st) eps (Spec.declared lay X)) (h2 : 2 ≤ r.k)
    (hY : ExpectedPath mod r.l (r.k - 1) st eps Y) : X ≠ Y := by
  intro e
  obtain ⟨hl, hk⟩ := found_inside h hk1 hr
  have hlast := C192_last_binds h hlag hself hk1 hl1 hL hr hf hX hE h2
  rw [← e] at hY
  have hout := rule_outside h hlag hself hl (by omega) hY (s := r.l + r.k - 1) (by unfold BindsAt; omega)
  have hin : Spec.declared lay X (r.l + r.k - 1) D.cvar = D.xbar :=
    (C148_paths_solve h hlag hself hl hk st eps X hX).binding _ (by unfold BindsAt; omega)
  rw [← hout, hin] at hlast
  exact lt_irrefl _ hlast

/-- **C65** in terms of the declared model: `k_map` returns the distance of the constraint equation from the bound in the first period after the spells `(i,k)` and `(l,i)`, along the paths
that are expected under these spells. -/
theorem C65_declared (h : Succeeded lay orc lMax kMax sched mod) (hlag : Spec.LagsNotExpected D) (hself : D.rb D.cvar ≠ 1)
    (hs' : ∀ l < lMax + 1, (sched' l).Perm (List.range (kMax + 1))) {tt : TTab (z ⊕ ε) K} (ht : newTmats mod sched' = .ok tt)
    (st : p ⊕ z → K) (eps : ε → K) (lArg kArg : Option Nat) {l k : Nat} (hl : l ≤ lMax) (hk : k ≤ kMax)
    (hlk : kMapLK mod (q0Of st eps) lArg kArg = .ok (l, k)) :
    ∃ ls ks, kMap mod tt (q0Of st eps) lArg kArg = .ok (ls, ks) ∧ ls.length = lMax ∧ ks.length = kMax ∧
      (∀ i Y, i < lMax → ExpectedPath mod i k st eps Y →
        ls[i]? = some (Spec.ruleAt (Spec.asSolved D) (lagVal lay st) eps (Spec.declared lay Y) (i + k) - D.xbar)) ∧
      ∀ i Y, i < kMax → ExpectedPath mod l i st eps Y →
        ks[i]? = some (Spec.ruleAt (Spec.asSolved D) (lagVal lay st) eps (Spec.declared lay Y) (l + i) - D.xbar) := by
  obtain ⟨c, hm⟩ := genSys_ok h.perm h.gen
  have hxb : mod.xbar = D.xbar := hm.xbar
  obtain ⟨ls, ks, h1, h2, h3, h4, h5⟩ := C65_k_map_values h hs' ht (q0Of st eps) lArg kArg hl hk hlk
  refine ⟨ls, ks, h1, h2, h3, fun i Y hi hY => ?_, fun i Y hi hY => ?_⟩
  · obtain ⟨Q, P, g1, g2, g3⟩ := spell_values h hlag hself (by omega) hk hY
    rw [h4 i Q P hi g1 g2, g3, hxb]
  · obtain ⟨Q, P, g1, g2, g3⟩ := spell_values h hlag hself hl (by omega) hY
    rw [h5 i Q P hi g1 g2, g3, hxb]

end Yaml

/-- **C12, C65**: the hypotheses are met, and what goes wrong.  After a shock of `-5` the constraint is expected to bind for two periods; in the second one its equation gives `-7/4`, but
`traj` says `-11/8`. -/
theorem C12_declared_met (lMax kMax : Nat) (hl : 1 ≤ lMax) (hk : 2 ≤ kMax) (hL : lMax + 1 ≤ 999) : ∃ mod tt,
    Succeeded Ex17.lay Ex17.orc lMax kMax (serial kMax) mod ∧ newTmats mod (serial kMax) = .ok tt ∧
    ∃ r X vals, tFunc mod 0 (fun _ => -5) .none false = .ok r ∧ r.flag = 0 ∧ r.k = 2 ∧ ExpectedPath mod r.l r.k 0 (fun _ => -5) X ∧
      Spec.RuleEquilibrium (Spec.asSolved Ex17.decl) (lagVal Ex17.lay (0 : Fin 1 ⊕ Fin 1 → Rat)) (fun _ => -5) (Spec.declared Ex17.lay X) ∧
      Spec.ruleAt (Spec.asSolved Ex17.decl) (lagVal Ex17.lay (0 : Fin 1 ⊕ Fin 1 → Rat)) (fun _ => -5) (Spec.declared Ex17.lay X) 1 = -7/4 ∧
      traj mod tt (q0Of (0 : Fin 1 ⊕ Fin 1 → Rat) (fun _ => -5)) none none = .ok ((0, 2), vals) ∧ vals[1]? = some (-11/8 : Rat) := by
  obtain ⟨mod, h⟩ := Ex17.succeeds (b := -1) lMax kMax (fun _ _ => List.Perm.refl _)
  obtain ⟨c, hm⟩ := genSys_ok h.perm h.gen
  have hp : ∀ l < lMax + 1, (serial kMax l).Perm (List.range (kMax + 1)) := fun _ _ => List.Perm.refl _
  obtain ⟨tt, ht, -⟩ := newTmats_read hm hp
  obtain ⟨r, a1, a2, a3, a4, a5⟩ := Ex17.run h (k := 2) (by omega) hk hL (st := 0) (eps := fun _ => -5) (by norm_num) (by norm_num)
  have hk1 : 1 ≤ kMax := by omega
  obtain ⟨X, hX, hXe⟩ := Ex17.flagMeansEquilibrium h hk1 _ _ r a1 a2
  obtain ⟨Y, hY⟩ := expectedPath_exists h (Nat.zero_le lMax) hk1 0 (fun _ => -5)
  have hlk := (C12_pair h (by omega) _ _ r a1).2.1
  rw [a3, a4] at hlk
  obtain ⟨vals, v1, -, v3⟩ := C12_declared h Ex17.lagsNotExpected Ex17.self_ne hp ht 0 (fun _ => -5) none none (Nat.zero_le _) hk hlk (Y := Y) hY
  refine ⟨mod, tt, h, ht, r, X, vals, a1, a2, a4, hX, hXe, ?_, v1, ?_⟩
  · rw [a3, a4] at hX
    have g := Ex17.path_binds h (Nat.zero_le _) hk hX (s := 1) (by unfold BindsAt; omega)
    rw [Ex17.base_in_spell h hk hX 1 (by omega)] at g
    exact Ex17.rule_eq.trans (by rw [g]; norm_num)
  · have g := Ex17.path_slack h (Nat.zero_le _) hk1 hY (s := 1) (by unfold BindsAt; omega)
    rw [Ex17.base_in_spell h hk1 hY 1 le_rfl] at g
    rw [v3 1 (by omega), Option.some.injEq]
    exact Ex17.rule_eq.trans (by rw [g]; norm_num)

/-- **C12**: the hypotheses of `C12_edge` are met after a shock of `-8/3`. -/
theorem C12_edge_met (lMax kMax : Nat) (hl : 1 ≤ lMax) (hk : 1 ≤ kMax) (hL : lMax + 1 ≤ 999) : ∃ mod X,
    Succeeded Ex17.lay Ex17.orc lMax kMax (serial kMax) mod ∧ trajLK mod (q0Of (0 : Fin 1 ⊕ Fin 1 → Rat) (fun _ => -8/3)) none none = .ok (0, 1) ∧
    ExpectedPath mod 0 1 0 (fun _ => -8/3) X ∧
    Spec.ruleAt (Spec.asSolved Ex17.decl) (lagVal Ex17.lay (0 : Fin 1 ⊕ Fin 1 → Rat)) (fun _ => -8/3) (Spec.declared Ex17.lay X) (0 + 1 - 1) = Ex17.decl.xbar := by
  obtain ⟨mod, h⟩ := Ex17.succeeds (b := -1) lMax kMax (fun _ _ => List.Perm.refl _)
  obtain ⟨r, a1, a2, a3, a4, a5⟩ := Ex17.edge_one h hl hk hL (st := 0) (eps := fun _ => -8/3) (by norm_num) (by norm_num)
  obtain ⟨X, hX⟩ := expectedPath_exists h (Nat.zero_le lMax) hk 0 (fun _ => -8/3)
  have hlk := (C12_pair h (by omega) _ _ r a1).2.1
  rw [a3, a4] at hlk
  refine ⟨mod, X, h, hlk, hX, ?_⟩
  have g := Ex17.path_binds h (Nat.zero_le _) hk hX (s := 0) (by unfold BindsAt; omega)
  rw [Ex17.base_zero] at g
  have hx : Ex17.decl.xbar = -1 := rfl
  rw [hx]
  exact Ex17.rule_eq.trans (by rw [g]; norm_num)

end Pydsge
