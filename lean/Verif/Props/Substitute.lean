import Verif.Props.Satellite
import Mathlib.Data.Matrix.ColumnRowPartitioned

/-!
# C178: definitions can be substituted

A model file may give a name to a combination of variables (`w = 3/4 y`) and use the name, with leads and lags, in equations and in the
constraint; or the combination may be written out everywhere. The other variables do not notice the difference.
-/

set_option autoImplicit false
set_option linter.unusedSectionVars false
set_option linter.unusedSimpArgs false

namespace Pydsge

open Matrix Pydsge.Engine Pydsge.Spec Pydsge.Tools Pydsge.GenSys

variable {E ν ε o K : Type} [Fintype E] [Fintype ν] [Fintype ε] [Fintype o]
  [DecidableEq E] [DecidableEq ν] [DecidableEq ε] [Field K] [LinearOrder K] [IsStrictOrderedRing K]
variable {H z p : Type} [DecidableEq H] [Fintype H] [Fintype z] [Fintype p] [DecidableEq z] [DecidableEq p]
variable {E' ν' o' : Type} [Fintype E'] [Fintype ν'] [Fintype o'] [DecidableEq E'] [DecidableEq ν']
  {H' z' p' : Type} [DecidableEq H'] [Fintype H'] [Fintype z'] [Fintype p'] [DecidableEq z'] [DecidableEq p']

/-- `D` is `D'` without the names that are defined in `D'`: the variable `v` of `D` is called `f v` in `D'`. `G` says that the definitions hold for
the values of one period. The definitions follow from the equations of `D'`; where they hold, the equations and the constraint of `D` are those of
`D'`. -/
structure Spec.WithoutNames (f : ν → ν') (G : (ν' → K) → Prop) (D' : Declared E' ν' ε K) (D : Declared E ν ε K) : Prop where
  defs : ∀ (a b c : ν' → K) (e : ε → K), D'.A *ᵥ a + D'.B *ᵥ b + D'.C *ᵥ c + D'.D *ᵥ e = 0 → G b
  eqs : ∀ (a b c : ν' → K) (e : ε → K), G a → G b → G c → D'.A *ᵥ a + D'.B *ᵥ b + D'.C *ᵥ c + D'.D *ᵥ e = 0 →
    D.A *ᵥ (a ∘ f) + D.B *ᵥ (b ∘ f) + D.C *ᵥ (c ∘ f) + D.D *ᵥ e = 0
  cvar : D'.cvar = f D.cvar
  rb : ∀ x : ν' → K, G x → D'.rb ⬝ᵥ x = D.rb ⬝ᵥ (x ∘ f)
  rc : ∀ x : ν' → K, G x → D'.rc ⬝ᵥ x = D.rc ⬝ᵥ (x ∘ f)
  rd : D'.rd = D.rd
  xbar : D'.xbar = D.xbar

section Concrete
variable {δ : Type} [Fintype δ] [DecidableEq δ]

/-- the names `δ` stand for these combinations of the other variables -/
def Spec.Named (Q : Matrix δ ν K) (x : ν ⊕ δ → K) : Prop := ∀ w, x (.inr w) = (Q *ᵥ fun v => x (.inl v)) w

/-- The equations and the constraint `D`, which use names, with the definitions `w = Q v` of the names. -/
def Spec.Declared.withDefs (D : Declared E (ν ⊕ δ) ε K) (Q : Matrix δ ν K) : Declared (E ⊕ δ) (ν ⊕ δ) ε K where
  A := fromRows D.A 0
  B := fromRows D.B (fromCols (-Q) 1)
  C := fromRows D.C 0
  D := fromRows D.D 0
  cvar := D.cvar
  rb := D.rb
  rc := D.rc
  rd := D.rd
  xbar := D.xbar

/-- The equations and the constraint `D` with the combinations written out; `c` is the constrained variable. -/
def Spec.Declared.writtenOut (D : Declared E (ν ⊕ δ) ε K) (Q : Matrix δ ν K) (c : ν) : Declared E ν ε K where
  A := fun i v => D.A i (.inl v) + ∑ w, D.A i (.inr w) * Q w v
  B := fun i v => D.B i (.inl v) + ∑ w, D.B i (.inr w) * Q w v
  C := fun i v => D.C i (.inl v) + ∑ w, D.C i (.inr w) * Q w v
  D := D.D
  cvar := c
  rb := fun v => D.rb (.inl v) + ∑ w, D.rb (.inr w) * Q w v
  rc := fun v => D.rc (.inl v) + ∑ w, D.rc (.inr w) * Q w v
  rd := D.rd
  xbar := D.xbar

theorem Spec.Named.dot {Q : Matrix δ ν K} {x : ν ⊕ δ → K} (hx : Named Q x) (b : ν ⊕ δ → K) :
    b ⬝ᵥ x = (fun v => b (.inl v) + ∑ w, b (.inr w) * Q w v) ⬝ᵥ (x ∘ Sum.inl) := by
  have h1 : ∀ w, x (.inr w) = ∑ v, Q w v * x (.inl v) := hx
  simp only [dotProduct, Fintype.sum_sum_type, Function.comp_apply, add_mul, Finset.sum_add_distrib, h1]
  congr 1
  simp only [Finset.mul_sum, Finset.sum_mul]
  rw [Finset.sum_comm]
  exact Finset.sum_congr rfl fun v _ => Finset.sum_congr rfl fun w _ => (mul_assoc ..).symm

/-- The model with the combinations written out is the one with the names, without the names. -/
theorem Spec.withoutNames_writtenOut (D : Declared E (ν ⊕ δ) ε K) (Q : Matrix δ ν K) {c : ν} (hc : D.cvar = .inl c) :
    WithoutNames Sum.inl (Named Q) (D.withDefs Q) (D.writtenOut Q c) := by
  refine ⟨fun a b c e h w => ?_, fun a b c e ha hb hc h => ?_, hc, fun x hx => hx.dot _, fun x hx => hx.dot _, rfl, rfl⟩
  · have := congrFun h (.inr w)
    simp only [Declared.withDefs, Pi.add_apply, fromRows_mulVec, Sum.elim_inr, zero_mulVec, Pi.zero_apply, zero_add, add_zero,
      fromCols_mulVec, neg_mulVec, one_mulVec, Pi.neg_apply, Function.comp_apply] at this
    rw [← sub_eq_zero, sub_eq_neg_add]
    exact this
  · funext i
    have := congrFun h (.inl i)
    simp only [Declared.withDefs, Pi.add_apply, fromRows_mulVec, Sum.elim_inl] at this
    have e1 := ha.dot (D.A i)
    have e2 := hb.dot (D.B i)
    have e3 := hc.dot (D.C i)
    simp only [Pi.add_apply, mulVec] at this ⊢
    rw [e1, e2, e3] at this
    exact this

end Concrete

section Solves
variable {f : ν → ν'} {G : (ν' → K) → Prop} {D' : Declared E' ν' ε K} {D : Declared E ν ε K}

/-- Where the definitions hold in the period before, a path of the model with names obeys them in all periods, and solves the model without. -/
theorem Spec.WithoutNames.solves (hD : WithoutNames f G D' D) {xlag : ν' → K} (hG : G xlag) {eps : ε → K} {x : Nat → ν' → K} {l k : Nat}
    (hx : SolvesUnderSpell D' xlag eps x l k) :
    (∀ s, G (prev xlag x s)) ∧ SolvesUnderSpell D (xlag ∘ f) eps (fun s => x s ∘ f) l k := by
  have hg : ∀ s, G (x s) := fun s => hD.defs _ _ _ _ (hx.eqs s)
  have hgp : ∀ s, G (prev xlag x s) := fun s => by
    cases s with
    | zero => exact hG
    | succ s => exact hg s
  have hprev : ∀ s, prev (xlag ∘ f) (fun s => x s ∘ f) s = prev xlag x s ∘ f := fun s => by cases s <;> rfl
  refine ⟨hgp, fun s => ?_, fun s hs => ?_, fun s hs => ?_⟩
  · unfold EqsHold
    rw [hprev]
    exact hD.eqs _ _ _ _ (hg _) (hg s) (hgp s) (hx.eqs s)
  · have := hx.slack s hs
    unfold notional at this ⊢
    rw [hprev, ← hD.rb _ (hg s), ← hD.rc _ (hgp s), ← hD.rd, ← this, hD.cvar]
    rfl
  · have := hx.binding s hs
    rw [hD.cvar, hD.xbar] at this
    exact this

theorem Spec.WithoutNames.asSolved (hD : WithoutNames f G D' D) (hself : D'.rb D'.cvar = D.rb D.cvar) :
    WithoutNames f G (Spec.asSolved D') (Spec.asSolved D) := by
  refine ⟨hD.defs, hD.eqs, hD.cvar, hD.rb, fun x hx => ?_, ?_, hD.xbar⟩
  · have := hD.rc x hx
    simp only [Spec.asSolved, dotProduct, neg_mul, Finset.sum_neg_distrib] at this ⊢
    rw [this]
  · simp only [Spec.asSolved, hself, hD.rd]

theorem Spec.WithoutNames.ruleValue (hD : WithoutNames f G D' D) (hself : D'.rb D'.cvar = D.rb D.cvar) {xlag x : ν' → K} (hl : G xlag) (hx : G x)
    (eps : ε → K) : Spec.ruleValue D' xlag eps x = Spec.ruleValue D (xlag ∘ f) eps (x ∘ f) := by
  rw [Spec.ruleValue_eq, Spec.ruleValue_eq, hself, hD.rb x hx, hD.rc xlag hl, hD.rd, hD.cvar]
  rfl

end Solves

section Core
variable {D : Declared E ν ε K} {Z0 : Matrix o ν K} {Z1 : o → K} {tol : K} [DecidablePred (inall tol (yaml D Z0 Z1))]
  {lay : Layout tol (yaml D Z0 Z1) H z p}
  {orc : Oracle (Rows E H ε) (z ⊕ ε) p K} {lMax kMax : Nat} {sched : Nat → List Nat} {mod : Model z ε p o K}
variable {D' : Declared E' ν' ε K} {Z0' : Matrix o' ν' K} {Z1' : o' → K} {tol' : K} [DecidablePred (inall tol' (yaml D' Z0' Z1'))]
  {lay' : Layout tol' (yaml D' Z0' Z1') H' z' p'}
  {orc' : Oracle (Rows E' H' ε) (z' ⊕ ε) p' K} {lMax' kMax' : Nat} {sched' : Nat → List Nat} {mod' : Model z' ε p' o' K}
  {f : ν → ν'} {G : (ν' → K) → Prop}

/-- The states describe the same past, and the definitions hold in it. -/
structure Spec.SamePast (f : ν → ν') (G : (ν' → K) → Prop) (lay : Layout tol (yaml D Z0 Z1) H z p)
    (lay' : Layout tol' (yaml D' Z0' Z1') H' z' p') (st : p ⊕ z → K) (st' : p' ⊕ z' → K) : Prop where
  same : lagVal lay st = lagVal lay' st' ∘ f
  defs : G (lagVal lay' st')

/-- The two linear solutions agree on the variables of the model without names. -/
def Spec.SameLinearNamed (f : ν → ν') (G : (ν' → K) → Prop) (lay : Layout tol (yaml D Z0 Z1) H z p) (mod : Model z ε p o K)
    (lay' : Layout tol' (yaml D' Z0' Z1') H' z' p') (mod' : Model z' ε p' o' K) : Prop :=
  ∀ st st' eps r r', SamePast f G lay lay' st st' → tFunc mod st eps (.pair 0 0) false = .ok r →
    tFunc mod' st' eps (.pair 0 0) false = .ok r' → ∀ v, lay.val r.state (.inl v) = lay'.val r'.state (.inl (f v))

/-- **C178**: the expected paths of the other variables are the same with and without names, for every spell that both tables hold; and the
definitions hold on them. -/
theorem C178_paths (h : Succeeded lay orc lMax kMax sched mod) (h' : Succeeded lay' orc' lMax' kMax' sched' mod')
    (hD : Spec.WithoutNames f G D' D) (hlin : Spec.SameLinearNamed f G lay mod lay' mod') (hlag : Spec.LagsNotExpected D)
    (hlag' : Spec.LagsNotExpected D') (hself : D.rb D.cvar ≠ 1) (hself' : D'.rb D'.cvar = D.rb D.cvar)
    {l k : Nat} (hl : l ≤ lMax) (hk : k ≤ kMax) (hl' : l ≤ lMax') (hk' : k ≤ kMax')
    {st : p ⊕ z → K} {st' : p' ⊕ z' → K} (hst : Spec.SamePast f G lay lay' st st') {eps : ε → K} {X : Nat → p ⊕ z → K}
    {X' : Nat → p' ⊕ z' → K} (hX : ExpectedPath mod l k st eps X) (hX' : ExpectedPath mod' l k st' eps X') (s : Nat) :
    (∀ v, lay.val (X s) (.inl v) = lay'.val (X' s) (.inl (f v))) ∧ G (fun v => lay'.val (X' s) (.inl v)) := by
  have hf := noLagFwd_of_not_expected (Z0 := Z0) (Z1 := Z1) hlag
  have hf' := noLagFwd_of_not_expected (Z0 := Z0') (Z1 := Z1') hlag'
  have hs1' : D'.rb D'.cvar ≠ 1 := by rw [hself']; exact hself
  let x' : Nat → ν' → K := fun s v => lay'.val (X' s) (.inl v)
  let x : Nat → ν → K := fun s => x' s ∘ f
  obtain ⟨hgp, h1⟩ := (hD.asSolved hself').solves hst.defs (C148_paths_solve h' hlag' hs1' hl' hk' st' eps X' hX')
  refine ⟨fun v => ?_, hgp (s + 1)⟩
  rw [← hst.same] at h1
  have hprev : ∀ s, prev (lagVal lay' st' ∘ f) x s = prev (lagVal lay' st') x' s ∘ f := fun s => by cases s <;> rfl
  have h2 : Spec.JoinsLinear lay mod st eps x (l + k) := by
    intro s hs
    obtain ⟨r', h1, h2⟩ := hX' s
    have e1 : elapsed l k s = (0, 0) := by
      unfold elapsed; split_ifs <;> refine Prod.ext ?_ ?_ <;> dsimp only <;> omega
    rw [e1] at h1
    obtain ⟨r, hr⟩ := expected_exists h (Nat.zero_le _) (Nat.zero_le _) (prev st (fun s => stateOf lay (x s)) s) (shockAt eps s)
    refine ⟨r, hr, fun v => ?_⟩
    show lay'.val (X' s) (.inl (f v)) = _
    rw [h2]
    have e2 := expected_lagVal h' hf' hl' hk' hX' s
    refine (hlin _ _ _ r r' ⟨?_, ?_⟩ hr h1 v).symm
    · rw [e2, lagVal_prev_of lay st x h.square, hst.same]
      exact hprev s
    · rw [e2]
      exact hgp s
  have h3 := C148_unique_path h hlag hself hl hk st eps x h1 h2
  obtain ⟨c, hm⟩ := genSys_ok h.perm h.gen
  have g1 := (expectedPath_iff hm h.orc h.noTiny h.square h.states hf hl hk st eps _).1 h3 s
  have g2 := (expectedPath_iff hm h.orc h.noTiny h.square h.states hf hl hk st eps _).1 hX s
  rw [g2, ← g1, val_stateOf lay h.square]
  rfl

/-- What the search reads agrees. -/
theorem named_reader (h : Succeeded lay orc lMax kMax sched mod) (h' : Succeeded lay' orc' lMax' kMax' sched' mod')
    (hD : Spec.WithoutNames f G D' D) (hlin : Spec.SameLinearNamed f G lay mod lay' mod') (hlag : Spec.LagsNotExpected D)
    (hlag' : Spec.LagsNotExpected D') (hself : D.rb D.cvar ≠ 1) (hself' : D'.rb D'.cvar = D.rb D.cvar)
    {st : p ⊕ z → K} {st' : p' ⊕ z' → K} (hst : Spec.SamePast f G lay lay' st st') (eps : ε → K) (i : Fin 5) {l k : Nat}
    (hl : l ≤ lMax) (hk : k ≤ kMax) (hl' : l ≤ lMax') (hk' : k ≤ kMax') :
    checkCnst mod.tables (q0Of st eps) i l k = checkCnst mod'.tables (q0Of st' eps) i l k := by
  obtain ⟨c, hm⟩ := genSys_ok h.perm h.gen
  obtain ⟨M, hS⟩ := hm.eng
  obtain ⟨c', hm'⟩ := genSys_ok h'.perm h'.gen
  obtain ⟨M', hS'⟩ := hm'.eng
  have hX := (expectedPath_iff hm h.orc h.noTiny h.square h.states (noLagFwd_of_not_expected hlag) hl hk st eps _).2 fun _ => rfl
  have hX' := (expectedPath_iff hm' h'.orc h'.noTiny h'.square h'.states (noLagFwd_of_not_expected hlag') hl' hk' st' eps _).2 fun _ => rfl
  have hp := C178_paths h h' hD hlin hlag hlag' hself hself' hl hk hl' hk' hst hX hX'
  have hval : ∀ s, pathValue (ff lay) c (q0Of st eps) l k s = pathValue (ff lay') c' (q0Of st' eps) l k s := by
    intro s
    have e : ∀ s, (fun v => lay.val (xPath c l k (q0Of st eps) s) (.inl v)) =
        (fun v => lay'.val (xPath c' l k (q0Of st' eps) s) (.inl v)) ∘ f := fun s => funext fun v => (hp s).1 v
    have eF : (fun s v => lay.val (xPath c l k (q0Of st eps) s) (.inl v)) =
      fun s => (fun v => lay'.val (xPath c' l k (q0Of st' eps) s) (.inl v)) ∘ f := funext e
    have hg : G (prev (lagVal lay' st') (fun s v => lay'.val (xPath c' l k (q0Of st' eps) s) (.inl v)) s) := by
      cases s with
      | zero => exact hst.defs
      | succ s => exact (hp s).2
    rw [pathValue_at h hm hlag hself hl hk, pathValue_at h' hm' hlag' (by rw [hself']; exact hself) hl' hk', hst.same,
      eF, e s, prev_comp, ← (hD.asSolved hself').ruleValue hself' hg (hp s).2]
  unfold checkCnst
  rw [hS.shapeL, hS.shapeK, hS'.shapeL, hS'.shapeK, if_pos (by omega), if_pos (by omega), hS.rows, hS'.rows]
  have c1 : l < lMax + 1 ∧ k < kMax + 1 := by omega
  have c2 : l < lMax' + 1 ∧ k < kMax' + 1 := by omega
  simp only [c1, c2, and_self, if_true, bRows]
  cases slotAt l k i with
  | none => rfl
  | some s =>
    simp only [rowAt_value]
    exact congrArg Except.ok (hval s)

/-- **C178** for the transition with its search: the same spell, the same flag, the same values; and the definitions hold for the new values. -/
theorem C178_transition (h : Succeeded lay orc lMax kMax sched mod) (h' : Succeeded lay' orc' lMax kMax sched' mod')
    (hk1 : 1 ≤ kMax) (hD : Spec.WithoutNames f G D' D) (hlin : Spec.SameLinearNamed f G lay mod lay' mod') (hlag : Spec.LagsNotExpected D)
    (hlag' : Spec.LagsNotExpected D') (hself : D.rb D.cvar ≠ 1) (hself' : D'.rb D'.cvar = D.rb D.cvar)
    {st : p ⊕ z → K} {st' : p' ⊕ z' → K} (hst : Spec.SamePast f G lay lay' st st') (eps : ε → K) :
    ∃ r r', tFunc mod st eps .none false = .ok r ∧ tFunc mod' st' eps .none false = .ok r' ∧ r.l = r'.l ∧ r.k = r'.k ∧
      r.flag = r'.flag ∧ (∀ v, lay.val r.state (.inl v) = lay'.val r'.state (.inl (f v))) ∧ G (fun v => lay'.val r'.state (.inl v)) ∧
      Spec.SamePast f G lay lay' r.state r'.state := by
  obtain ⟨c, hm⟩ := genSys_ok h.perm h.gen
  obtain ⟨M, hS⟩ := hm.eng
  obtain ⟨c', hm'⟩ := genSys_ok h'.perm h'.gen
  obtain ⟨M', hS'⟩ := hm'.eng
  have := h.states
  have := h'.states
  have hrd : checkCnst mod.tables (q0Of st eps) = checkCnst mod'.tables (q0Of st' eps) := by
    funext i l k
    by_cases hlk : l < lMax + 1 ∧ k < kMax + 1
    · exact named_reader h h' hD hlin hlag hlag' hself hself' hst eps i (by omega) (by omega) (by omega) (by omega)
    · unfold checkCnst
      rw [hS.shapeL, hS.shapeK, hS'.shapeL, hS'.shapeK, if_neg hlk, if_neg hlk]
  have hxb : mod.xbar = mod'.xbar := by rw [hm.xbar, hm'.xbar]; exact hD.xbar.symm
  obtain ⟨l, k, flag, hf, hl, hk, -⟩ := findLk_cases (xbar := mod.xbar) (checkCnst_reads hS (q0Of st eps)) (by omega) (by omega)
  have hf' := hf
  rw [hrd, hxb] at hf'
  have hX := (expectedPath_iff hm h.orc h.noTiny h.square h.states (noLagFwd_of_not_expected hlag) (show l ≤ lMax by omega)
    (show k ≤ kMax by omega) st eps _).2 fun _ => rfl
  have hX' := (expectedPath_iff hm' h'.orc h'.noTiny h'.square h'.states (noLagFwd_of_not_expected hlag') (show l ≤ lMax by omega)
    (show k ≤ kMax by omega) st' eps _).2 fun _ => rfl
  have hv := C178_paths h h' hD hlin hlag hlag' hself hself' (show l ≤ lMax by omega)
    (show k ≤ kMax by omega) (by omega) (by omega) hst hX hX' 0
  have e1 := expected_lagVal h (noLagFwd_of_not_expected hlag) (show l ≤ lMax by omega) (show k ≤ kMax by omega) hX 1
  have e2 := expected_lagVal h' (noLagFwd_of_not_expected hlag') (show l ≤ lMax by omega) (show k ≤ kMax by omega) hX' 1
  refine ⟨_, _, tFunc_find hm st eps hf (by omega) (by omega), tFunc_find hm' st' eps hf' (by omega) (by omega), rfl, rfl, rfl,
    hv.1, hv.2, e1.trans (Eq.trans ?_ (congrArg (· ∘ f) e2.symm)), ?_⟩
  · funext v
    exact hv.1 v
  · have e3 : lagVal lay' (xPath c' l k (q0Of st' eps) 0) = fun v => lay'.val (xPath c' l k (q0Of st' eps) 0) (.inl v) := e2
    exact (congrArg G e3).mpr hv.2

/-- **C178** for simulations: over any sequence of shocks the equilibria, the flag and the paths of the other variables are the same with and
without names, and the names have the values they are defined to have. -/
theorem C178_simulation (h : Succeeded lay orc lMax kMax sched mod) (h' : Succeeded lay' orc' lMax kMax sched' mod')
    (hk1 : 1 ≤ kMax) (hD : Spec.WithoutNames f G D' D) (hlin : Spec.SameLinearNamed f G lay mod lay' mod') (hlag : Spec.LagsNotExpected D)
    (hlag' : Spec.LagsNotExpected D') (hself : D.rb D.cvar ≠ 1) (hself' : D'.rb D'.cvar = D.rb D.cvar) (es : List (ε → K))
    {st : p ⊕ z → K} {st' : p' ⊕ z' → K} (hst : Spec.SamePast f G lay lay' st st') :
    ∃ res res', simLoop mod false st es = .ok res ∧ simLoop mod' false st' es = .ok res' ∧ res.LK = res'.LK ∧ res.flag = res'.flag ∧
      res.X.tail.map (fun x v => lay.val x (.inl v)) = res'.X.tail.map (fun x v => lay'.val x (.inl (f v))) ∧
      ∀ x ∈ res'.X.tail, G (fun v => lay'.val x (.inl v)) := by
  suffices ∃ res res', simLoop mod false st es = .ok res ∧ simLoop mod' false st' es = .ok res' ∧ res.LK = res'.LK ∧
      res.flag = res'.flag ∧ (∃ X X', res.X = st :: X ∧ res'.X = st' :: X' ∧
        X.map (fun x v => lay.val x (.inl v)) = X'.map (fun x v => lay'.val x (.inl (f v))) ∧ ∀ x ∈ X', G (fun v => lay'.val x (.inl v))) by
    obtain ⟨res, res', h1, h2, h3, h4, X, X', h5, h6, h7, h8⟩ := this
    exact ⟨res, res', h1, h2, h3, h4, by rw [h5, h6]; exact h7, by rw [h6]; exact h8⟩
  induction es generalizing st st' with
  | nil => exact ⟨_, _, rfl, rfl, rfl, rfl, [], [], rfl, rfl, rfl, by simp⟩
  | cons e es ih =>
    obtain ⟨r, r', h1, h2, h3, h4, h5, h6, h7, h8⟩ := C178_transition h h' hk1 hD hlin hlag hlag' hself hself' hst e
    obtain ⟨res, res', g1, g2, g3, g4, X, X', g5, g6, g7, g8⟩ := ih h8
    refine ⟨⟨st :: res.X, (r.l, r.k) :: res.LK, r.flag ||| res.flag⟩, ⟨st' :: res'.X, (r'.l, r'.k) :: res'.LK, r'.flag ||| res'.flag⟩,
      by simp only [simLoop, h1, g1], by simp only [simLoop, h2, g2], ?_, ?_, res.X, res'.X, rfl, rfl, ?_, ?_⟩
    · simp only [h3, h4, g3]
    · simp only [h5, g4]
    · rw [g5, g6, List.map_cons, List.map_cons, g7]
      congr 1
      funext v
      exact h6 v
    · intro x hx
      rw [g6] at hx
      rcases List.mem_cons.1 hx with rfl | hx
      · exact h7
      · exact g8 x hx

/-- **C178**: the linear solutions agree if both return to the steady state and the equations without names have one such path. -/
theorem C178_linear_of_stable (h : Succeeded lay orc lMax kMax sched mod) (h' : Succeeded lay' orc' lMax' kMax' sched' mod')
    (hD : Spec.WithoutNames f G D' D) (hlag : Spec.LagsNotExpected D) (hlag' : Spec.LagsNotExpected D') (hself : D.rb D.cvar ≠ 1)
    (hself' : D'.rb D'.cvar = D.rb D.cvar) (hs : Spec.LinearStable mod) (hs' : Spec.LinearStable mod')
    (hdet : Spec.Determinate Spec.DiesOut (Spec.asSolved D)) : Spec.SameLinearNamed f G lay mod lay' mod' := by
  intro st st' eps r r' hst hr hr' v
  obtain ⟨c, hm⟩ := genSys_ok h.perm h.gen
  obtain ⟨c', hm'⟩ := genSys_ok h'.perm h'.gen
  have hs1' : D'.rb D'.cvar ≠ 1 := by rw [hself']; exact hself
  have hX := (expectedPath_iff hm h.orc h.noTiny h.square h.states (noLagFwd_of_not_expected hlag) (Nat.zero_le _) (Nat.zero_le _) st
    eps _).2 fun _ => rfl
  have hX' := (expectedPath_iff hm' h'.orc h'.noTiny h'.square h'.states (noLagFwd_of_not_expected hlag') (Nat.zero_le _) (Nat.zero_le _) st'
    eps _).2 fun _ => rfl
  have s1 := C148_paths_solve h hlag hself (Nat.zero_le _) (Nat.zero_le _) st _ _ hX
  have s2 := ((hD.asSolved hself').solves hst.defs (C148_paths_solve h' hlag' hs1' (Nat.zero_le _) (Nat.zero_le _) st' _ _ hX')).2
  rw [← hst.same] at s2
  have e := hdet _ _ _ _ s1 s2 (diesOut_val (C132_expected_paths_return hs hX)) (by
    intro d hd
    obtain ⟨N, hN⟩ := diesOut_val (lay := lay') (C132_expected_paths_return hs' hX') d hd
    exact ⟨N, fun n hn v => hN n hn (f v)⟩)
  have e0 := congrFun (congrFun e 0) v
  obtain ⟨r1, a1, a2⟩ := hX 0
  obtain ⟨r2, b1, b2⟩ := hX' 0
  have k1 : r1 = r := by
    have : tFunc mod st eps (.pair 0 0) false = .ok r1 := a1
    rw [hr] at this
    exact (Except.ok.inj this).symm
  have k2 : r2 = r' := by
    have : tFunc mod' st' eps (.pair 0 0) false = .ok r2 := b1
    rw [hr'] at this
    exact (Except.ok.inj this).symm
  subst k1 k2
  rw [← a2, ← b2]
  exact e0

end Core
end Pydsge
