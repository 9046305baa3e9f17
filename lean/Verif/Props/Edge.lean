import Verif.Props.TimeCons
import Verif.Props.ConLag

/-!
# C149: spells that give the same path

At the border between two regions of the transition function the two pieces agree.
-/

set_option autoImplicit false
set_option linter.unusedSectionVars false
set_option linter.unusedSimpArgs false

namespace Pydsge

open Matrix Pydsge.Engine Pydsge.Spec Pydsge.Tools Pydsge.GenSys

variable {E ν ε o K : Type} [Fintype E] [Fintype ν] [Fintype ε] [Fintype o]
  [DecidableEq E] [DecidableEq ν] [DecidableEq ε] [Field K] [LinearOrder K] [IsStrictOrderedRing K]
variable {H z p : Type} [DecidableEq H] [Fintype H] [Fintype z] [Fintype p] [DecidableEq z] [DecidableEq p]

theorem prev_shift {α : Type} (xlag : ν → α) (x : Nat → ν → α) (n s : Nat) :
    prev (prev xlag x n) (fun t => x (n + t)) s = prev xlag x (n + s) := by
  cases s <;> rfl

theorem shockAt_shift (eps : ε → K) (n s : Nat) : shockAt (shockAt eps n) s = shockAt eps (n + s) := by
  cases s with
  | zero => rfl
  | succ s => rfl

section Yaml
variable {D : Declared E ν ε K} {Z0 : Matrix o ν K} {Z1 : o → K} {tol : K} [DecidablePred (inall tol (yaml D Z0 Z1))]
  {lay : Layout tol (yaml D Z0 Z1) H z p}
  {orc : Oracle (Rows E H ε) (z ⊕ ε) p K} {lMax kMax : Nat} {sched : Nat → List Nat} {mod : Model z ε p o K}

/-- A path that solves the model, is on the linear solution from the next period on and is not constrained now, is on the linear solution now. -/
theorem joins_back (h : Succeeded lay orc lMax kMax sched mod) (hf : Spec.LagsNotExpected D) (hself : D.rb D.cvar ≠ 1) (h1 : 1 ≤ lMax)
    {l k : Nat} {st0 : p ⊕ z → K} {eps : ε → K} {x : Nat → ν → K} (hx : SolvesUnderSpell (Spec.asSolved D) (lagVal lay st0) eps x l k)
    {n : Nat} (hn : l + k ≤ n) (hj : Spec.JoinsLinear lay mod st0 eps x (n + 1)) : Spec.JoinsLinear lay mod st0 eps x n := by
  intro s hs
  rcases Nat.eq_or_lt_of_le hs with rfl | hs
  swap
  · exact hj s hs
  have hf' := noLagFwd_of_not_expected (Z0 := Z0) (Z1 := Z1) hf
  obtain ⟨c, hm⟩ := genSys_ok h.perm h.gen
  have hlv := lagVal_prev_of lay st0 x h.square n
  have hx' : SolvesUnderSpell (Spec.asSolved D) (lagVal lay (prev st0 (fun s => stateOf lay (x s)) n)) (shockAt eps n) (fun t => x (n + t)) 1 0 := by
    rw [hlv]
    refine ⟨fun s => ?_, fun s _ => ?_, fun s hs => ?_⟩
    · have := hx.eqs (n + s)
      unfold EqsHold at this ⊢
      rw [prev_shift, shockAt_shift]
      exact this
    · have := hx.slack (n + s) (by unfold BindsAt; omega)
      unfold notional at this ⊢
      rw [prev_shift, shockAt_shift]
      exact this
    · unfold BindsAt at hs
      omega
  have hj' : Spec.JoinsLinear lay mod (prev st0 (fun s => stateOf lay (x s)) n) (shockAt eps n) (fun t => x (n + t)) (1 + 0) := by
    intro s hs
    have e := prev_shift st0 (fun s => stateOf lay (x s)) n s
    rw [e, shockAt_shift]
    exact hj (n + s) (by omega)
  have hX := C148_unique_path h hf hself h1 (Nat.zero_le _) _ _ _ hx' hj'
  rw [expectedPath_iff hm h.orc h.noTiny h.square h.states hf' h1 (Nat.zero_le _)] at hX
  have hX0 : ExpectedPath mod 0 0 (prev st0 (fun s => stateOf lay (x s)) n) (shockAt eps n) (fun t => stateOf lay (x (n + t))) := by
    rw [expectedPath_iff hm h.orc h.noTiny h.square h.states hf' (Nat.zero_le _) (Nat.zero_le _)]
    intro s
    rw [hX s, (xPath_l0 h hm h1 _ s).2]
  obtain ⟨r, hr, hs⟩ := hX0 0
  refine ⟨r, hr, fun v => ?_⟩
  rw [← hs]
  show x n v = lay.val (stateOf lay (x n)) (.inl v)
  rw [val_stateOf lay h.square]
  rfl

/-- From a later period on the linear solution to an earlier one, if there is no binding period in between. -/
theorem joins_back_many (h : Succeeded lay orc lMax kMax sched mod) (hf : Spec.LagsNotExpected D) (hself : D.rb D.cvar ≠ 1) (h1 : 1 ≤ lMax)
    {l k : Nat} {st0 : p ⊕ z → K} {eps : ε → K} {x : Nat → ν → K} (hx : SolvesUnderSpell (Spec.asSolved D) (lagVal lay st0) eps x l k)
    {n : Nat} (hn : l + k ≤ n) (d : Nat) (hj : Spec.JoinsLinear lay mod st0 eps x (n + d)) : Spec.JoinsLinear lay mod st0 eps x n := by
  induction d with
  | zero => exact hj
  | succ d ih => exact ih (joins_back h hf hself h1 hx (by omega) hj)

/-- **C149**: the path under a spell is the path under another spell as well if and only if in each period in which only one of them binds the
constrained variable is at its bound and the right hand side of the constraint is, too. (The constraint is that of the solved model, see C148.) -/
theorem C149_two_spells (h : Succeeded lay orc lMax kMax sched mod) (hf : Spec.LagsNotExpected D) (hself : D.rb D.cvar ≠ 1)
    {l k l' k' : Nat} (hl : l ≤ lMax) (hk : k ≤ kMax) (hl' : l' ≤ lMax) (hk' : k' ≤ kMax) (h1 : 1 ≤ lMax ∨ l + k ≤ l' + k')
    {st0 : p ⊕ z → K} {eps : ε → K} {X : Nat → p ⊕ z → K} (hX : ExpectedPath mod l k st0 eps X) :
    ExpectedPath mod l' k' st0 eps X ↔
      ∀ s, ¬ (BindsAt l k s ↔ BindsAt l' k' s) → Spec.declared lay X s D.cvar = D.xbar ∧
        notional (Spec.asSolved D) (lagVal lay st0) eps (Spec.declared lay X) s = D.xbar := by
  have hf' := noLagFwd_of_not_expected (Z0 := Z0) (Z1 := Z1) hf
  have hs := C148_paths_solve h hf hself hl hk st0 eps X hX
  constructor
  · intro hX' s hb
    have hs' := C148_paths_solve h hf hself hl' hk' st0 eps X hX'
    by_cases hb1 : BindsAt l k s
    · have hb2 : ¬ BindsAt l' k' s := fun hb2 => hb ⟨fun _ => hb2, fun _ => hb1⟩
      exact ⟨hs.binding s hb1, (hs'.slack s hb2).symm.trans (hs.binding s hb1)⟩
    · have hb2 : BindsAt l' k' s := by
        by_contra hb2
        exact hb ⟨fun h => absurd h hb1, fun h => absurd h hb2⟩
      exact ⟨hs'.binding s hb2, (hs.slack s hb1).symm.trans (hs'.binding s hb2)⟩
  · intro hb
    have hs' : SolvesUnderSpell (Spec.asSolved D) (lagVal lay st0) eps (Spec.declared lay X) l' k' := by
      refine ⟨hs.eqs, fun s hb2 => ?_, fun s hb2 => ?_⟩
      · by_cases hb1 : BindsAt l k s
        · obtain ⟨g1, g2⟩ := hb s (fun h => hb2 (h.1 hb1))
          exact g1.trans g2.symm
        · exact hs.slack s hb1
      · by_cases hb1 : BindsAt l k s
        · exact hs.binding s hb1
        · exact (hb s (fun h => hb1 (h.2 hb2))).1
    have e : ∀ s, X s = stateOf lay (Spec.declared lay X s) := expected_stateOf h hf' hl hk hX
    obtain ⟨y, hy1, -, hy3⟩ := (C148_characterisation h hf hself hl hk st0 eps X).1 hX
    have hyx : y = Spec.declared lay X := by
      funext s v
      unfold Spec.declared
      rw [hy1 s, val_stateOf lay h.square]
      rfl
    rw [hyx] at hy3
    refine (C148_characterisation h hf hself hl' hk' st0 eps X).2 ⟨_, e, hs', ?_⟩
    rcases Nat.le_total (l + k) (l' + k') with hle | hle
    · exact fun s hs => hy3 s (by omega)
    · rcases h1 with h1 | h1
      · refine joins_back_many h hf hself h1 hs' (Nat.le_refl _) (l + k - (l' + k')) ?_
        rwa [Nat.add_sub_cancel' hle]
      · exact fun s hs => hy3 s (by omega)

/-- **C149**, the end of a spell: counting one period more makes no difference if and only if the rule gives the bound in that period. -/
theorem C149_end_of_spell (h : Succeeded lay orc lMax kMax sched mod) (hf : Spec.LagsNotExpected D) (hself : D.rb D.cvar ≠ 1)
    {l k : Nat} (hl : l ≤ lMax) (hk : k + 1 ≤ kMax) {st0 : p ⊕ z → K} {eps : ε → K} {X : Nat → p ⊕ z → K}
    (hX : ExpectedPath mod l k st0 eps X) :
    ExpectedPath mod l (k + 1) st0 eps X ↔ Spec.declared lay X (l + k) D.cvar = D.xbar := by
  have hs := C148_paths_solve h hf hself hl (Nat.le_of_succ_le hk) st0 eps X hX
  rw [C149_two_spells h hf hself hl (Nat.le_of_succ_le hk) hl hk (Or.inr (by omega)) hX]
  constructor
  · intro hb
    exact (hb (l + k) (by unfold BindsAt; omega)).1
  · intro hb s hs'
    obtain rfl : s = l + k := by
      unfold BindsAt at hs'
      omega
    exact ⟨hb, (hs.slack (l + k) (by unfold BindsAt; omega)).symm.trans hb⟩

/-- **C149**, the beginning of a spell: letting it begin one period later makes no difference if and only if the rule gives the bound in that period. -/
theorem C149_start_of_spell (h : Succeeded lay orc lMax kMax sched mod) (hf : Spec.LagsNotExpected D) (hself : D.rb D.cvar ≠ 1)
    {l k : Nat} (hl : l + 1 ≤ lMax) (hk : k + 1 ≤ kMax) {st0 : p ⊕ z → K} {eps : ε → K} {X : Nat → p ⊕ z → K}
    (hX : ExpectedPath mod l (k + 1) st0 eps X) :
    ExpectedPath mod (l + 1) k st0 eps X ↔ notional (Spec.asSolved D) (lagVal lay st0) eps (Spec.declared lay X) l = D.xbar := by
  have hs := C148_paths_solve h hf hself (Nat.le_of_succ_le hl) hk st0 eps X hX
  rw [C149_two_spells h hf hself (Nat.le_of_succ_le hl) hk hl (Nat.le_of_succ_le hk) (Or.inl (by omega)) hX]
  constructor
  · intro hb
    exact (hb l (by unfold BindsAt; omega)).2
  · intro hb s hs'
    obtain rfl : s = l := by
      unfold BindsAt at hs'
      omega
    exact ⟨hs.binding s (by unfold BindsAt; omega), hb⟩

/-- **C149**, for `t_func`: where the condition holds, the two pieces of the transition function have the same value. -/
theorem C149_pieces_agree (h : Succeeded lay orc lMax kMax sched mod) (hf : Spec.LagsNotExpected D) (hself : D.rb D.cvar ≠ 1)
    {l k l' k' : Nat} (hl : l ≤ lMax) (hk : k ≤ kMax) (hl' : l' ≤ lMax) (hk' : k' ≤ kMax) (h1 : 1 ≤ lMax ∨ l + k ≤ l' + k')
    {st0 : p ⊕ z → K} {eps : ε → K} {X : Nat → p ⊕ z → K} (hX : ExpectedPath mod l k st0 eps X)
    (hb : ∀ s, ¬ (BindsAt l k s ↔ BindsAt l' k' s) → Spec.declared lay X s D.cvar = D.xbar ∧
        notional (Spec.asSolved D) (lagVal lay st0) eps (Spec.declared lay X) s = D.xbar) :
    ∃ r r', tFunc mod st0 eps (.pair l k) false = .ok r ∧ tFunc mod st0 eps (.pair l' k') false = .ok r' ∧ r.state = r'.state := by
  obtain ⟨r, hr, e⟩ := hX 0
  obtain ⟨r', hr', e'⟩ := (C149_two_spells h hf hself hl hk hl' hk' h1 hX).2 hb 0
  rw [elapsed_zero] at hr hr'
  exact ⟨r, r', hr, hr', e.symm.trans e'⟩

end Yaml
end Pydsge
