import Verif.Props.AveragesEx
import Verif.Examples.Ex10

/-!
# C190: imposed spells are never worse than the equilibrium
-/

set_option autoImplicit false
set_option linter.unusedSectionVars false
set_option linter.unusedSimpArgs false

namespace Pydsge

open Matrix Pydsge.Engine Pydsge.Spec Pydsge.Tools Pydsge.GenSys

variable {E ν ε o K : Type} [Fintype E] [Fintype ν] [Fintype ε] [Fintype o]
  [DecidableEq E] [DecidableEq ν] [DecidableEq ε] [Field K] [LinearOrder K] [IsStrictOrderedRing K]
variable {H z p : Type} [DecidableEq H] [Fintype H] [Fintype z] [Fintype p] [DecidableEq z] [DecidableEq p]
section Yaml
variable {D : Declared E ν ε K} {Z0 : Matrix o ν K} {Z1 : o → K} {tol : K} [DecidablePred (inall tol (yaml D Z0 Z1))]
  {lay : Layout tol (yaml D Z0 Z1) H z p}
  {orc : Oracle (Rows E H ε) (z ⊕ ε) p K} {lMax kMax : Nat} {sched : Nat → List Nat} {mod : Model z ε p o K}

/-- Under the spell `(l, k)`, by how much the constrained variable is above the value that satisfies the constraint equation. -/
def Spec.imposedLift (lay : Layout tol (yaml D Z0 Z1) H z p) (l k : Nat) (st : p ⊕ z → K) (eps : ε → K) (X : Nat → p ⊕ z → K) (s : Nat) : K :=
  if BindsAt l k s then D.xbar - Spec.ruleAt (Spec.asSolved D) (lagVal lay st) eps (Spec.declared lay X) s else 0

section
variable (h : Succeeded lay orc lMax kMax sched mod) (hlag : Spec.LagsNotExpected D) (hself : D.rb D.cvar ≠ 1)
  (hP : Spec.NoReversalOf lay mod)
include h hlag hself hP

/-- If announced disturbances that are positive do not raise the constrained variable in the same period, none is positive. -/
theorem announced_nonpos (hZ : Spec.LowersElsewhere lay mod) {d : Nat → ν → K} {w : Nat → K} (hd : Spec.AnnouncedResponse lay mod d w)
    (hw : ∀ s, 0 < w s → d s D.cvar ≤ 0) (s : Nat) : w s ≤ 0 := by
  obtain ⟨n, hn⟩ := announced_ends h hlag hself hd
  obtain ⟨dm, hdm, -⟩ := announced_exists_unique h hlag hself hP (n := n) (w := fun s => max (-(w s)) 0) fun s hs => by
    rw [hn s hs, neg_zero, max_self]
  have h2 := announced_comb h hlag hself hP hd hdm 1
  obtain ⟨n2, hn2⟩ := h2.ends
  have hpos : ∀ s, w s + 1 * max (-(w s)) 0 = max (w s) 0 := by
    intro s
    rcases le_total (w s) 0 with g | g
    · rw [max_eq_left (neg_nonneg.2 g), max_eq_right g]
      ring
    · rw [max_eq_right (neg_nonpos.2 g), max_eq_left g]
      ring
  have h0 := hP _ _ n2 h2.eqs h2.rule hn2 fun s => by
    rw [hpos]
    rcases le_or_gt (w s) 0 with g | g
    · rw [max_eq_right g, zero_mul]
    · rw [max_eq_left g.le]
      refine mul_nonpos_of_nonneg_of_nonpos g.le ?_
      have a1 := hZ dm _ s hdm (fun s => le_max_right _ _) (max_eq_right (neg_nonpos.2 g.le))
      have a2 := hw s g
      linarith
  have h3 := h2.rule s
  rw [h0, hpos] at h3
  have e0 : Spec.ruleAt (Spec.asSolved D) 0 0 (0 : Nat → ν → K) s = 0 := by
    have := ruleAt_sub (Spec.asSolved D) 0 0 (0 : Nat → ν → K) 0 s
    rw [sub_self] at this
    rw [← this]
    congr 1
    funext s
    simp
  rw [e0, zero_add] at h3
  have h4 : max (w s) 0 = 0 := h3.symm.trans (congrFun (congrFun h0 s) D.cvar)
  rw [← h4]
  exact le_max_left _ _

/-- **C190.** Let announced disturbances not reverse, and announced increases of the constrained variable not raise it in other periods. An imposed
spell, of any start and length, adds in every period at most what the constraint adds in equilibrium. -/
theorem C190_adds_less (hZ : Spec.LowersElsewhere lay mod) {st : p ⊕ z → K} {e : ε → K} {x : Nat → ν → K}
    (hx : Spec.EndsInEquilibrium lay mod st e x) {l k : Nat} (hl : l ≤ lMax) (hk : k ≤ kMax) {X : Nat → p ⊕ z → K}
    (hX : ExpectedPath mod l k st e X) (s : Nat) : Spec.imposedLift lay l k st e X s ≤ Spec.lift D (lagVal lay st) e x s := by
  obtain ⟨Y, hY⟩ := (C15_elapsed_spell_reproduces_expected_path h (noLagFwd_of_not_expected hlag) (Nat.zero_le lMax) (Nat.zero_le kMax) st e).1
  have h1 := announced_comb h hlag hself hP (C186_difference h hlag hself hl hk hX hY) (lift_response h hlag hself hx hY) (-1)
  have h2 := announced_nonpos h hlag hself hP hZ h1 (fun s hs => ?_) s
  · unfold Spec.imposedLift
    linarith
  · have hb := lift_nonneg hx.equilibrium s
    by_cases hB : BindsAt l k s
    · have b1 : Spec.declared lay X s D.cvar = D.xbar := (C148_paths_solve h hlag hself hl hk st e X hX).binding s hB
      have b2 := above_bound h hlag hself hP hx.equilibrium s
      simp only [Pi.sub_apply]
      linarith
    · simp only [if_neg hB] at hs
      linarith

/-- **C190.** So no imposed spell is worse than the equilibrium: in every period, each variable that announced increases of the constrained variable
lower is at least as high as in equilibrium, and each that they raise at most as high. -/
theorem C190_never_worse (hZ : Spec.LowersElsewhere lay mod) {st : p ⊕ z → K} {e : ε → K} {x : Nat → ν → K}
    (hx : Spec.EndsInEquilibrium lay mod st e x) {l k : Nat} (hl : l ≤ lMax) (hk : k ≤ kMax) {X : Nat → p ⊕ z → K}
    (hX : ExpectedPath mod l k st e X) (v : ν) (t : Nat) :
    (Spec.Lowers lay mod v t → x t v ≤ lay.val (X t) (.inl v)) ∧ (Spec.Raises lay mod v t → lay.val (X t) (.inl v) ≤ x t v) := by
  obtain ⟨Y, hY⟩ := (C15_elapsed_spell_reproduces_expected_path h (noLagFwd_of_not_expected hlag) (Nat.zero_le lMax) (Nat.zero_le kMax) st e).1
  have h1 := announced_comb h hlag hself hP (lift_response h hlag hself hx hY) (C186_difference h hlag hself hl hk hX hY) (-1)
  have hpos := fun s => C190_adds_less h hlag hself hP hZ hx hl hk hX s
  unfold Spec.imposedLift at hpos
  refine ⟨fun hv => ?_, fun hv => ?_⟩
  all_goals
    have := hv _ _ h1 fun s => by
      have := hpos s
      linarith
    simp only [Pi.sub_apply, Spec.declared] at this
    linarith

/-- **C190.** Of two imposed spells the longer one adds in every period at most as much, if on the path of the shorter one the constrained variable is
not below its bound in the periods that the longer one adds. -/
theorem C190_longer_adds_less (hZ : Spec.LowersElsewhere lay mod) {st : p ⊕ z → K} {e : ε → K} {l k l' k' : Nat} (hl : l ≤ lMax) (hk : k ≤ kMax)
    (hl' : l' ≤ lMax) (hk' : k' ≤ kMax) {X X' : Nat → p ⊕ z → K} (hX : ExpectedPath mod l k st e X) (hX' : ExpectedPath mod l' k' st e X')
    (hin : ∀ s, BindsAt l k s → BindsAt l' k' s)
    (hab : ∀ s, BindsAt l' k' s → ¬ BindsAt l k s → D.xbar ≤ lay.val (X s) (.inl D.cvar)) (s : Nat) :
    Spec.imposedLift lay l' k' st e X' s ≤ Spec.imposedLift lay l k st e X s := by
  obtain ⟨Y, hY⟩ := (C15_elapsed_spell_reproduces_expected_path h (noLagFwd_of_not_expected hlag) (Nat.zero_le lMax) (Nat.zero_le kMax) st e).1
  have h1 := announced_comb h hlag hself hP (C186_difference h hlag hself hl' hk' hX' hY) (C186_difference h hlag hself hl hk hX hY) (-1)
  have h2 := announced_nonpos h hlag hself hP hZ h1 (fun s hs => ?_) s
  · unfold Spec.imposedLift
    linarith
  · by_cases hB' : BindsAt l' k' s
    · have b1 : Spec.declared lay X' s D.cvar = D.xbar := (C148_paths_solve h hlag hself hl' hk' st e X' hX').binding s hB'
      have b2 : D.xbar ≤ Spec.declared lay X s D.cvar := by
        by_cases hB : BindsAt l k s
        · exact ((C148_paths_solve h hlag hself hl hk st e X hX).binding s hB).ge
        · exact hab s hB' hB
      simp only [Pi.sub_apply]
      linarith
    · simp only [if_neg hB', if_neg (fun hB => hB' (hin s hB))] at hs
      linarith

/-- **C190.** and is not worse: keeping the constrained variable at its bound for longer than it would be there is expansionary in every period. -/
theorem C190_longer (hZ : Spec.LowersElsewhere lay mod) {st : p ⊕ z → K} {e : ε → K} {l k l' k' : Nat} (hl : l ≤ lMax) (hk : k ≤ kMax)
    (hl' : l' ≤ lMax) (hk' : k' ≤ kMax) {X X' : Nat → p ⊕ z → K} (hX : ExpectedPath mod l k st e X) (hX' : ExpectedPath mod l' k' st e X')
    (hin : ∀ s, BindsAt l k s → BindsAt l' k' s)
    (hab : ∀ s, BindsAt l' k' s → ¬ BindsAt l k s → D.xbar ≤ lay.val (X s) (.inl D.cvar)) (v : ν) (t : Nat) :
    (Spec.Lowers lay mod v t → lay.val (X t) (.inl v) ≤ lay.val (X' t) (.inl v)) ∧
    (Spec.Raises lay mod v t → lay.val (X' t) (.inl v) ≤ lay.val (X t) (.inl v)) := by
  obtain ⟨Y, hY⟩ := (C15_elapsed_spell_reproduces_expected_path h (noLagFwd_of_not_expected hlag) (Nat.zero_le lMax) (Nat.zero_le kMax) st e).1
  have h1 := announced_comb h hlag hself hP (C186_difference h hlag hself hl hk hX hY) (C186_difference h hlag hself hl' hk' hX' hY) (-1)
  have hpos := fun s => C190_longer_adds_less h hlag hself hP hZ hl hk hl' hk' hX hX' hin hab s
  unfold Spec.imposedLift at hpos
  refine ⟨fun hv => ?_, fun hv => ?_⟩
  all_goals
    have := hv _ _ h1 fun s => by
      have := hpos s
      linarith
    simp only [Pi.sub_apply, Spec.declared] at this
    linarith

/-- **C190** for one transition: with any imposed spell the state is not worse than the one that is found. -/
theorem C190_transition (hk1 : 1 ≤ kMax) (hZ : Spec.LowersElsewhere lay mod) (hF : Spec.FlagMeansEquilibrium lay mod) {st : p ⊕ z → K} {e : ε → K}
    {r r' : Step z p K} (hr : tFunc mod st e .none false = .ok r) (hf : r.flag = 0) {l k : Nat} (hl : l ≤ lMax) (hk : k ≤ kMax)
    (hr' : tFunc mod st e (.pair (l : Int) (k : Int)) false = .ok r') {v : ν} :
    (Spec.Lowers lay mod v 0 → lay.val r.state (.inl v) ≤ lay.val r'.state (.inl v)) ∧
    (Spec.Raises lay mod v 0 → lay.val r'.state (.inl v) ≤ lay.val r.state (.inl v)) := by
  obtain ⟨x, hx, hx0⟩ := transition_equilibrium h hk1 hlag hself hF hr hf
  obtain ⟨X, hX⟩ := (C15_elapsed_spell_reproduces_expected_path h (noLagFwd_of_not_expected hlag) hl hk st e).1
  obtain ⟨r1, g1, g2⟩ := hX 0
  rw [elapsed_zero] at g1
  have : r1 = r' := Except.ok.inj (g1.symm.trans hr')
  subst this
  have := C190_never_worse h hlag hself hP hZ hx hl hk hX v 0
  rwa [g2, ← hx0 v] at this

end

/-- Impulse responses to shocks of the first period with an imposed spell follow the expected path of this spell. -/
theorem irfs_imposed_path (h : Succeeded lay orc lMax kMax sched mod) {sk : SetK} {l k : Nat} (hsk : spellOf sk = some (l, k)) (hl : l ≤ lMax)
    (hk : k ≤ kMax) {sl : List (ShockSpec ε K)} {eps : ε → K} (hsl : ∀ t, Spec.ShocksAt sl t (shockAt eps t)) {st : p ⊕ z → K} {T : Nat}
    {X : Nat → p ⊕ z → K} (hX : ExpectedPath mod l k st eps X) :
    ∃ xs, irfs mod ⟨sl, sk, false, false⟩ st T = .ok xs ∧ xs.length = T ∧ ∀ (t : Nat) s, xs[t]? = some s → s.state = X t := by
  obtain ⟨xs, h1, h2, h3⟩ := (C16_imposed_spell_elapses h hsk sl false (force := false) (.inl rfl) st T).1 ⟨hl, hk⟩
  refine ⟨xs, h1, h2, fun t => ?_⟩
  have step : ∀ t s, xs[t]? = some s → (if t = 0 then st else (xs[t-1]?.map (·.state)).getD st) = prev st X t → s.state = X t := by
    intro t s hs hp
    obtain ⟨r, g1, g2, -⟩ := h3 t s hs
    obtain ⟨r', g3, g4⟩ := hX t
    rw [hp, ← (shocksAt_iff sl _ _).1 (hsl t)] at g1
    rw [g2, g4, Except.ok.inj (g1.symm.trans g3)]
  induction t with
  | zero =>
    intro s hs
    exact step 0 s hs rfl
  | succ t ih =>
    intro s hs
    have ht : t < xs.length := by
      obtain ⟨h3, _⟩ := List.getElem?_eq_some_iff.1 hs
      omega
    have hp : xs[t]? = some xs[t] := List.getElem?_eq_getElem ht
    refine step (t + 1) s hs ?_
    rw [if_neg (Nat.succ_ne_zero t), Nat.add_sub_cancel, hp]
    exact ih _ hp

/-- **C190** for impulse responses to shocks of the first period: with any imposed spell inside the tables (`set_k`), they are in no period worse than
those with the spells that are found. -/
theorem C190_irfs (h : Succeeded lay orc lMax kMax sched mod) (hk1 : 1 ≤ kMax) (hlag : Spec.LagsNotExpected D) (hself : D.rb D.cvar ≠ 1)
    (hP : Spec.NoReversalOf lay mod) (hZ : Spec.LowersElsewhere lay mod) (st0 : p ⊕ z → K) (sl : List (ShockSpec ε K)) (eps : ε → K)
    (hsl : ∀ t, Spec.ShocksAt sl t (shockAt eps t)) {r : Step z p K} (hr : tFunc mod st0 eps .none false = .ok r)
    {X : Nat → p ⊕ z → K} (hX : ExpectedPath mod r.l r.k st0 eps X)
    (hXe : Spec.RuleEquilibrium (Spec.asSolved D) (lagVal lay st0) eps (Spec.declared lay X))
    (hrep : ∀ t, Spec.ReportsEquilibrium lay mod (X t) 0) {sk : SetK} {l k : Nat} (hsk : spellOf sk = some (l, k)) (hl : l ≤ lMax) (hk : k ≤ kMax)
    (T : Nat) : ∃ xs ys, irfs mod ⟨sl, .none, false, false⟩ st0 T = .ok xs ∧ irfs mod ⟨sl, sk, false, false⟩ st0 T = .ok ys ∧
      xs.length = T ∧ ys.length = T ∧ ∀ (t : Nat) s s', xs[t]? = some s → ys[t]? = some s' → ∀ v,
        (Spec.Lowers lay mod v t → lay.val s.state (.inl v) ≤ lay.val s'.state (.inl v)) ∧
        (Spec.Raises lay mod v t → lay.val s'.state (.inl v) ≤ lay.val s.state (.inl v)) := by
  obtain ⟨xs, a1, a2, a3⟩ := C174_as_announced h hk1 hlag hself hP st0 sl eps hsl hr hX hXe hrep T
  obtain ⟨X', hX'⟩ := (C15_elapsed_spell_reproduces_expected_path h (noLagFwd_of_not_expected hlag) hl hk st0 eps).1
  obtain ⟨ys, b1, b2, b3⟩ := irfs_imposed_path (T := T) h hsk hl hk hsl hX'
  refine ⟨xs, ys, a1, b1, a2, b2, fun t s s' hs hs' v => ?_⟩
  rw [a3 t s hs, b3 t s' hs']
  obtain ⟨hrl, hrk⟩ := found_inside h hk1 hr
  obtain ⟨x, hx1, hx2, hx3⟩ := (C148_characterisation h hlag hself hrl hrk st0 eps X).1 hX
  have hdecl : Spec.declared lay X = x := by
    funext s v
    unfold Spec.declared
    rw [hx1, val_stateOf lay h.square]
    rfl
  have := C190_never_worse h hlag hself hP hZ (x := Spec.declared lay X) ⟨hXe, _, by rw [hdecl]; exact hx3⟩ hl hk hX' v t
  exact this

end Yaml

/-- **C190**: the hypotheses of `C190_irfs` are met. After the shock `-5` the constraint binds for two periods. With `set_k=4` it is at the bound for four
periods, and `y` is higher from the third period on. -/
theorem C190_hypotheses_met (lMax kMax : Nat) (hk : 4 ≤ kMax) (hL : lMax + 1 ≤ 999) : ∃ mod r X,
    Succeeded Ex17.lay Ex17.orc lMax kMax (serial kMax) mod ∧ Spec.LagsNotExpected Ex17.decl ∧ Ex17.decl.rb Ex17.decl.cvar ≠ 1 ∧
    Spec.NoReversalOf Ex17.lay mod ∧ Spec.LowersElsewhere Ex17.lay mod ∧ (∀ t, Spec.Lowers Ex17.lay mod 0 t) ∧
    Spec.FlagMeansEquilibrium Ex17.lay mod ∧
    (∀ t, Spec.ShocksAt [((0 : Fin 1), (-5 : Rat), 0)] t (shockAt (fun _ => -5) t)) ∧
    tFunc mod (0 : Fin 1 ⊕ Fin 1 → Rat) (fun _ => -5) .none false = .ok r ∧ r.flag = 0 ∧ (r.l, r.k) = (0, 2) ∧
    ExpectedPath mod r.l r.k 0 (fun _ => -5) X ∧
    Spec.RuleEquilibrium (Spec.asSolved Ex17.decl) (lagVal Ex17.lay (0 : Fin 1 ⊕ Fin 1 → Rat)) (fun _ => -5) (Spec.declared Ex17.lay X) ∧
    (∀ t, Spec.ReportsEquilibrium Ex17.lay mod (X t) 0) ∧ spellOf (.int 4) = some (0, 4) ∧
    ∃ xs ys, irfs mod ⟨[(0, -5, 0)], .none, false, false⟩ 0 4 = .ok xs ∧ irfs mod ⟨[(0, -5, 0)], .int 4, false, false⟩ 0 4 = .ok ys ∧
      xs.map (fun s => s.state (.inr 0)) = [-11/3, -7/3, -7/6, -7/12] ∧ ys.map (fun s => s.state (.inr 0)) = [-11/3, -7/3, -1, 1/3] := by
  obtain ⟨mod, h⟩ := Ex17.succeeds (b := -1) lMax kMax (fun _ _ => List.Perm.refl _)
  obtain ⟨r, b1, b2, b3, b4, b5⟩ := Ex17.run h (k := 2) (by omega) (by omega) hL (st := 0) (eps := fun _ => -5) (by norm_num) (by norm_num)
  have hF := Ex17.flagMeansEquilibrium h (by omega)
  have hrun := b1
  obtain ⟨X, hX, hXe⟩ := hF _ _ _ b1 b2
  obtain ⟨rs, rl, rk, rf⟩ := r
  simp only at b2 b3 b4 b5 hX
  subst b2 b3 b4
  have hk2 : 2 ≤ kMax := by omega
  have hsl : ∀ t, Spec.ShocksAt [((0 : Fin 1), (-5 : Rat), 0)] t (shockAt (fun _ => -5) t) := by
    intro t
    rw [shocksAt_iff]
    funext e
    obtain rfl : e = 0 := Subsingleton.elim _ _
    cases t with
    | zero => simp [shkVec, shockAt]
    | succ t =>
      have : ¬ (0 : Int) = ((t : Int) + 1) := by omega
      simp [shkVec, shockAt, this]
  have vy : ∀ {Z : Nat → Fin 1 ⊕ Fin 1 → Rat} (s : Nat), Spec.declared Ex17.lay Z s 0 = Z s (.inr 0) := fun s => Ex17.val_y _
  have binds : ∀ {k' : Nat} {Z}, k' ≤ kMax → ExpectedPath mod 0 k' (0 : Fin 1 ⊕ Fin 1 → Rat) (fun _ => -5) Z → ∀ s, s + 1 < k' →
      Z (s + 1) (.inr 0) = Z s (.inr 0) + 4/3 := by
    intro k' Z hk' hZ s hs
    have := Ex17.path_binds h (Nat.zero_le _) hk' hZ (s := s + 1) (by unfold BindsAt; omega)
    rw [Ex17.base_succ, vy, vy] at this
    rw [this]
    norm_num
  have slack : ∀ {k' : Nat} {Z}, k' ≤ kMax → ExpectedPath mod 0 k' (0 : Fin 1 ⊕ Fin 1 → Rat) (fun _ => -5) Z → ∀ s, k' ≤ s + 1 →
      Z (s + 1) (.inr 0) = 1/2 * Z s (.inr 0) := by
    intro k' Z hk' hZ s hs
    have := Ex17.path_slack h (Nat.zero_le _) hk' hZ (s := s + 1) (by unfold BindsAt; omega)
    rwa [Ex17.base_succ, vy, vy] at this
  have first : ∀ {k' : Nat} {Z}, 0 < k' → k' ≤ kMax → ExpectedPath mod 0 k' (0 : Fin 1 ⊕ Fin 1 → Rat) (fun _ => -5) Z → Z 0 (.inr 0) = -11/3 := by
    intro k' Z h0 hk' hZ
    have := Ex17.path_binds h (Nat.zero_le _) hk' hZ (s := 0) (by unfold BindsAt; omega)
    rw [Ex17.base_zero, vy] at this
    rw [this]
    norm_num
  have x0 : X 0 (.inr 0) = -11/3 := first (by omega) hk2 hX
  have x1 : X 1 (.inr 0) = -7/3 := by rw [binds hk2 hX 0 (by omega), x0]; norm_num
  have x2 : X 2 (.inr 0) = -7/6 := by rw [slack hk2 hX 1 (by omega), x1]; norm_num
  have x3 : X 3 (.inr 0) = -7/12 := by rw [slack hk2 hX 2 (by omega), x2]; norm_num
  have later : ∀ t, -7/3 ≤ X (t + 1) (.inr 0) ∧ X (t + 1) (.inr 0) ≤ 0 := by
    intro t
    induction t with
    | zero => rw [x1]; norm_num
    | succ t ih =>
      rw [slack hk2 hX (t + 1) (by omega)]
      constructor <;> linarith
  have hrep : ∀ t, Spec.ReportsEquilibrium Ex17.lay mod (X t) 0 := by
    intro t
    cases t with
    | zero =>
      obtain ⟨r, a1, a2, -⟩ := Ex17.run h (k := 1) (by omega) (by omega) hL (st := X 0) (eps := 0) (by rw [x0]; norm_num) (by rw [x0]; norm_num)
      obtain ⟨Z, hZ, hZe⟩ := hF _ _ _ a1 a2
      exact ⟨r, Z, a1, hZ, hZe⟩
    | succ t =>
      obtain ⟨r, a1, a2, -⟩ := Ex17.run_slack h (by omega) hL (st := X (t + 1)) (eps := 0) (by
        have := (later t).1
        simp only [Pi.zero_apply]
        linarith)
      obtain ⟨Z, hZ, hZe⟩ := hF _ _ _ a1 a2
      exact ⟨r, Z, a1, hZ, hZe⟩
  obtain ⟨xs, c1, c2, c3⟩ := C174_as_announced h (by omega) Ex17.lagsNotExpected Ex17.self_ne Ex17.noReversalOf 0 _ _ hsl hrun hX hXe hrep 4
  obtain ⟨Z, hZ⟩ := (C15_elapsed_spell_reproduces_expected_path h (noLagFwd_of_not_expected Ex17.lagsNotExpected) (Nat.zero_le lMax) hk
    (0 : Fin 1 ⊕ Fin 1 → Rat) (fun _ => -5)).1
  obtain ⟨ys, d1, d2, d3⟩ := irfs_imposed_path (sk := .int 4) (l := 0) (k := 4) (T := 4) h rfl (Nat.zero_le lMax) hk hsl hZ
  have z0 : Z 0 (.inr 0) = -11/3 := first (by omega) hk hZ
  have z1 : Z 1 (.inr 0) = -7/3 := by rw [binds hk hZ 0 (by omega), z0]; norm_num
  have z2 : Z 2 (.inr 0) = -1 := by rw [binds hk hZ 1 (by omega), z1]; norm_num
  have z3 : Z 3 (.inr 0) = 1/3 := by rw [binds hk hZ 2 (by omega), z2]; norm_num
  refine ⟨mod, _, X, h, Ex17.lagsNotExpected, Ex17.self_ne, Ex17.noReversalOf, Ex17.lowersElsewhere, Ex17.lowers_y, hF, hsl, hrun, rfl, rfl, hX, hXe,
    hrep, rfl, xs, ys, c1, d1, ?_, ?_⟩
  · match xs, c2, c3 with
    | [a, b, c, d], _, c3 =>
      simp only [List.map_cons, List.map_nil, c3 0 a rfl, c3 1 b rfl, c3 2 c rfl, c3 3 d rfl, x0, x1, x2, x3]
  · match ys, d2, d3 with
    | [a, b, c, d], _, d3 =>
      simp only [List.map_cons, List.map_nil, d3 0 a rfl, d3 1 b rfl, d3 2 c rfl, d3 3 d rfl, z0, z1, z2, z3]

/-- **C190** without the condition that announced disturbances do not reverse is refuted: `y = 1/4 y(-1) + 4/3 r + e`, `r = max(y, -1)` stays in the steady
state, announced increases of `r` lower `y` on impact, and the imposed spell of one period lowers `y` from `0` to `-4/3`. -/
theorem C190_reversal_refuted : ∃ mod, Succeeded Ex10.lay Ex10.orc 1 1 (serial 1) mod ∧ Spec.LagsNotExpected Ex10.decl ∧
    Ex10.decl.rb Ex10.decl.cvar ≠ 1 ∧ Spec.Lowers Ex10.lay mod 0 0 ∧ ∃ r r', tFunc mod 0 0 .none false = .ok r ∧ r.flag = 0 ∧
      Spec.EndsInEquilibrium Ex10.lay mod 0 0 0 ∧ (∀ v, Ex10.lay.val r.state (.inl v) = 0) ∧
      tFunc mod (0 : Fin 1 ⊕ Fin 1 → Rat) 0 (.pair 0 1) false = .ok r' ∧ Ex10.lay.val r'.state (.inl 0) = -4/3 := by
  obtain ⟨mod, h⟩ := Ex10.succeeds 1 1 (sched := serial 1) (fun _ _ => List.Perm.refl _)
  have hlag : Spec.LagsNotExpected Ex10.decl := Spec.LagsNotExpected.of_rc rfl
  have hself : Ex10.decl.rb Ex10.decl.cvar ≠ 1 := by simp [Ex10.decl]
  have heq : ∀ {xl : Fin 2 → Rat} {eps : Fin 1 → Rat} {x : Nat → Fin 2 → Rat} {s : Nat},
      EqsHold Ex10.decl xl eps x s ↔ x s 0 = 1/4 * prev xl x s 0 + 4/3 * x s 1 + shockAt eps s 0 := by
    intro xl eps x s
    constructor
    · intro hh
      have h0 := congrFun hh 0
      simp [Ex10.decl, mulVec, dotProduct, Fin.sum_univ_two] at h0
      linarith
    · intro h0
      funext i
      simp [Ex10.decl, mulVec, dotProduct, Fin.sum_univ_two]
      linarith
  have hrule : ∀ {xl : Fin 2 → Rat} {eps : Fin 1 → Rat} {x : Nat → Fin 2 → Rat} {s : Nat},
      Spec.ruleAt (Spec.asSolved Ex10.decl) xl eps x s = x s 0 := by
    intro xl eps x s
    unfold Spec.ruleAt
    rw [Spec.ruleValue_eq]
    simp [Spec.asSolved, Ex10.decl, dotProduct, Fin.sum_univ_two]
  obtain ⟨r, a1, a2, a3, a4, a5⟩ := C10_steady_state_fixed_point h (show (-1 : Rat) < 0 by norm_num) false
  have hnl := noLagFwd_of_not_expected (Z0 := Ex10.Z0) (Z1 := Ex10.Z1) hlag
  obtain ⟨X, hX⟩ := (C15_elapsed_spell_reproduces_expected_path h hnl (Nat.zero_le 1) (le_refl 1) (0 : Fin 1 ⊕ Fin 1 → Rat) 0).1
  obtain ⟨Y, hY⟩ := (C15_elapsed_spell_reproduces_expected_path h hnl (Nat.zero_le 1) (Nat.zero_le 1) (0 : Fin 1 ⊕ Fin 1 → Rat) 0).1
  obtain ⟨y, -, -, hy⟩ := (C148_characterisation h hlag hself (Nat.zero_le _) (Nat.zero_le _) 0 0 Y).1 hY
  have hj := joins_sub h hy hy
  rw [sub_self, sub_self] at hj
  have hl0 : ∀ v, lagVal Ex10.lay (0 : Fin 1 ⊕ Fin 1 → Rat) v = 0 := by
    intro v
    unfold lagVal
    split_ifs
    · rfl
    · have := val_sub Ex10.lay (0 : Fin 1 ⊕ Fin 1 → Rat) 0 (.inl v)
      rwa [sub_self, sub_self] at this
  have hpaths := C148_paths_solve h hlag hself (Nat.zero_le 1) (le_refl 1) 0 0 X hX
  obtain ⟨r', b1, b2⟩ := hX 0
  rw [elapsed_zero] at b1
  refine ⟨mod, h, hlag, hself, ?_, r, r', a1, a5, ⟨⟨fun s => ?_, fun s => ?_⟩, 0, ?_⟩, fun v => ?_, b1, ?_⟩
  · intro d w hd hw
    have h1 := heq.1 (hd.eqs 0)
    have h2 := hd.rule 0
    rw [hrule] at h2
    change d 0 1 = _ at h2
    have h3 := hw 0
    simp only [prev, shockAt, Pi.zero_apply] at h1
    linarith
  · refine heq.2 ?_
    rw [shockAt_zero]
    cases s with
    | zero => simp [prev, hl0]
    | succ s => simp [prev]
  · rw [hrule]
    show (0 : Rat) = max (-1) 0
    norm_num
  · convert hj using 1
    funext s v
    simp
  · have := val_sub Ex10.lay (0 : Fin 1 ⊕ Fin 1 → Rat) 0 (.inl v)
    rw [sub_self, sub_self] at this
    rw [a2]
    exact this
  · have h0 : EqsHold Ex10.decl (lagVal Ex10.lay (0 : Fin 1 ⊕ Fin 1 → Rat)) 0 (Spec.declared Ex10.lay X) 0 := hpaths.eqs 0
    have h1 := heq.1 h0
    have h2 : Spec.declared Ex10.lay X 0 1 = -1 := hpaths.binding 0 (by unfold BindsAt; omega)
    rw [h2, shockAt_zero] at h1
    simp only [prev, hl0, Pi.zero_apply] at h1
    rw [← b2]
    refine h1.trans ?_
    norm_num

end Pydsge
