import Verif.Props.Unique
import Verif.Props.Stability

/-!
# C140: satellite equations and variables do not influence the core of a model

A model file is extended by variables (and shocks) that the equations and the constraint of the core do not mention: a definition
(`w = 2 y`), a growth rate (`g = y - y(-1)`), a block that only reacts to the core.
-/

set_option autoImplicit false
set_option linter.unusedSectionVars false
set_option linter.unusedSimpArgs false

namespace Pydsge

open Matrix Pydsge.Engine Pydsge.Spec Pydsge.Tools Pydsge.GenSys

variable {E ν ε o K : Type} [Fintype E] [Fintype ν] [Fintype ε] [Fintype o]
  [DecidableEq E] [DecidableEq ν] [DecidableEq ε] [Field K] [LinearOrder K] [IsStrictOrderedRing K]
variable {H z p : Type} [DecidableEq H] [Fintype H] [Fintype z] [Fintype p] [DecidableEq z] [DecidableEq p]
variable {E' ν' ε' o' : Type} [Fintype E'] [Fintype ν'] [Fintype ε'] [Fintype o'] [DecidableEq E'] [DecidableEq ν'] [DecidableEq ε']
  {H' z' p' : Type} [DecidableEq H'] [Fintype H'] [Fintype z'] [Fintype p'] [DecidableEq z'] [DecidableEq p']

/-- `D'` contains `D`: the variable `v` of `D` is called `f v` in `D'`, the shock `e` is called `g e`; the equations of `D` follow from
those of `D'`; the constraint is the same. -/
structure Spec.Contains (f : ν → ν') (g : ε → ε') (D' : Declared E' ν' ε' K) (D : Declared E ν ε K) : Prop where
  eqs : ∀ (a b c : ν' → K) (e : ε' → K), D'.A *ᵥ a + D'.B *ᵥ b + D'.C *ᵥ c + D'.D *ᵥ e = 0 →
    D.A *ᵥ (a ∘ f) + D.B *ᵥ (b ∘ f) + D.C *ᵥ (c ∘ f) + D.D *ᵥ (e ∘ g) = 0
  cvar : D'.cvar = f D.cvar
  rb : ∀ x : ν' → K, D'.rb ⬝ᵥ x = D.rb ⬝ᵥ (x ∘ f)
  rc : ∀ x : ν' → K, D'.rc ⬝ᵥ x = D.rc ⬝ᵥ (x ∘ f)
  rd : ∀ e : ε' → K, D'.rd ⬝ᵥ e = D.rd ⬝ᵥ (e ∘ g)
  xbar : D'.xbar = D.xbar

/-- The extension of `D` by the variables `δ`, the shocks `η` and the equations `F`. -/
def Spec.Declared.extend {F δ η : Type} (D : Declared E ν ε K) (A₁ B₁ C₁ : Matrix F ν K) (D₁ : Matrix F ε K)
    (A₂ B₂ C₂ : Matrix F δ K) (D₂ : Matrix F η K) : Declared (E ⊕ F) (ν ⊕ δ) (ε ⊕ η) K where
  A := fromBlocks D.A 0 A₁ A₂
  B := fromBlocks D.B 0 B₁ B₂
  C := fromBlocks D.C 0 C₁ C₂
  D := fromBlocks D.D 0 D₁ D₂
  cvar := .inl D.cvar
  rb := Sum.elim D.rb 0
  rc := Sum.elim D.rc 0
  rd := Sum.elim D.rd 0
  xbar := D.xbar

/-- Whatever the additional equations are, the extended model contains the core. -/
theorem Spec.contains_extend {F δ η : Type} [Fintype F] [Fintype δ] [Fintype η] (D : Declared E ν ε K) (A₁ B₁ C₁ : Matrix F ν K)
    (D₁ : Matrix F ε K) (A₂ B₂ C₂ : Matrix F δ K) (D₂ : Matrix F η K) :
    Contains Sum.inl Sum.inl (D.extend A₁ B₁ C₁ D₁ A₂ B₂ C₂ D₂) D := by
  refine ⟨fun a b c e h => ?_, rfl, fun x => ?_, fun x => ?_, fun x => ?_, rfl⟩
  · funext i
    have := congrFun h (.inl i)
    simpa [Declared.extend, fromBlocks_mulVec] using this
  all_goals simp [Declared.extend, dotProduct, Fintype.sum_sum_type]

/-- The core of a solution of the larger model solves the smaller one. -/
theorem Spec.Contains.solves {f : ν → ν'} {g : ε → ε'} {D' : Declared E' ν' ε' K} {D : Declared E ν ε K} (hD : Contains f g D' D)
    {xlag : ν' → K} {eps : ε' → K} {x : Nat → ν' → K} {l k : Nat} (hx : SolvesUnderSpell D' xlag eps x l k) :
    SolvesUnderSpell D (xlag ∘ f) (eps ∘ g) (fun s => x s ∘ f) l k := by
  have hprev : ∀ s, prev (xlag ∘ f) (fun s => x s ∘ f) s = prev xlag x s ∘ f := fun s => by cases s <;> rfl
  have hsh : ∀ s, shockAt (eps ∘ g) s = shockAt eps s ∘ g := fun s => by cases s <;> rfl
  refine ⟨fun s => ?_, fun s hs => ?_, fun s hs => ?_⟩
  · unfold EqsHold
    rw [hprev, hsh]
    exact hD.eqs _ _ _ _ (hx.eqs s)
  · have := hx.slack s hs
    unfold notional at this ⊢
    rw [hprev, hsh, ← hD.rb, ← hD.rc, ← hD.rd, ← this, hD.cvar]
    rfl
  · have := hx.binding s hs
    rw [hD.cvar, hD.xbar] at this
    exact this

theorem prev_comp {S S' : Type} (f : S → S') (x0 : S' → K) (x : Nat → S' → K) (s : Nat) :
    prev (x0 ∘ f) (fun s => x s ∘ f) s = prev x0 x s ∘ f := by cases s <;> rfl

theorem Spec.Contains.asSolved {f : ν → ν'} {g : ε → ε'} {D' : Declared E' ν' ε' K} {D : Declared E ν ε K} (hD : Contains f g D' D)
    (hself : D'.rb D'.cvar = D.rb D.cvar) : Contains f g (Spec.asSolved D') (Spec.asSolved D) := by
  refine ⟨hD.eqs, hD.cvar, hD.rb, fun x => ?_, fun x => ?_, hD.xbar⟩
  · have := hD.rc x
    simp only [Spec.asSolved, dotProduct, neg_mul, Finset.sum_neg_distrib] at this ⊢
    rw [this]
  · have := hD.rd x
    simp only [Spec.asSolved, dotProduct, mul_assoc, ← Finset.mul_sum, hself] at this ⊢
    rw [this]

theorem Spec.Contains.ruleValue {f : ν → ν'} {g : ε → ε'} {D' : Declared E' ν' ε' K} {D : Declared E ν ε K} (hD : Contains f g D' D)
    (hself : D'.rb D'.cvar = D.rb D.cvar) (xlag : ν' → K) (eps : ε' → K) (x : ν' → K) :
    Spec.ruleValue D' xlag eps x = Spec.ruleValue D (xlag ∘ f) (eps ∘ g) (x ∘ f) := by
  rw [Spec.ruleValue_eq, Spec.ruleValue_eq, hself, hD.rb, hD.rc, hD.rd, hD.cvar]
  rfl

section Core
variable {D : Declared E ν ε K} {Z0 : Matrix o ν K} {Z1 : o → K} {tol : K} [DecidablePred (inall tol (yaml D Z0 Z1))]
  {lay : Layout tol (yaml D Z0 Z1) H z p}
  {orc : Oracle (Rows E H ε) (z ⊕ ε) p K} {lMax kMax : Nat} {sched : Nat → List Nat} {mod : Model z ε p o K}
variable {D' : Declared E' ν' ε' K} {Z0' : Matrix o' ν' K} {Z1' : o' → K} {tol' : K} [DecidablePred (inall tol' (yaml D' Z0' Z1'))]
  {lay' : Layout tol' (yaml D' Z0' Z1') H' z' p'}
  {orc' : Oracle (Rows E' H' ε') (z' ⊕ ε') p' K} {lMax' kMax' : Nat} {sched' : Nat → List Nat} {mod' : Model z' ε' p' o' K}
  {f : ν → ν'} {g : ε → ε'}

/-- The two linear solutions agree on the core. -/
def Spec.SameLinearCore (f : ν → ν') (g : ε → ε') (lay : Layout tol (yaml D Z0 Z1) H z p) (mod : Model z ε p o K)
    (lay' : Layout tol' (yaml D' Z0' Z1') H' z' p') (mod' : Model z' ε' p' o' K) : Prop :=
  ∀ st st' eps' r r', lagVal lay st = lagVal lay' st' ∘ f → tFunc mod st (eps' ∘ g) (.pair 0 0) false = .ok r →
    tFunc mod' st' eps' (.pair 0 0) false = .ok r' → ∀ v, lay.val r.state (.inl v) = lay'.val r'.state (.inl (f v))

/-- If the core of a path of `D'` under a spell solves `D` under this spell, and the linear solutions agree on `D`, then the expected paths of the
variables of `D` agree for this spell. -/
theorem core_paths_of (h : Succeeded lay orc lMax kMax sched mod) (h' : Succeeded lay' orc' lMax' kMax' sched' mod')
    (hlin : Spec.SameLinearCore f g lay mod lay' mod') (hlag : Spec.LagsNotExpected D) (hlag' : Spec.LagsNotExpected D')
    (hself : D.rb D.cvar ≠ 1) (hself' : D'.rb D'.cvar = D.rb D.cvar)
    {l k : Nat} (hD : ∀ xlag eps x, SolvesUnderSpell (Spec.asSolved D') xlag eps x l k →
      SolvesUnderSpell (Spec.asSolved D) (xlag ∘ f) (eps ∘ g) (fun s => x s ∘ f) l k) (hl : l ≤ lMax) (hk : k ≤ kMax) (hl' : l ≤ lMax') (hk' : k ≤ kMax')
    {st : p ⊕ z → K} {st' : p' ⊕ z' → K} (hst : lagVal lay st = lagVal lay' st' ∘ f) {eps' : ε' → K} {X : Nat → p ⊕ z → K}
    {X' : Nat → p' ⊕ z' → K} (hX : ExpectedPath mod l k st (eps' ∘ g) X) (hX' : ExpectedPath mod' l k st' eps' X') (s : Nat) (v : ν) :
    lay.val (X s) (.inl v) = lay'.val (X' s) (.inl (f v)) := by
  have hf := noLagFwd_of_not_expected (Z0 := Z0) (Z1 := Z1) hlag
  have hf' := noLagFwd_of_not_expected (Z0 := Z0') (Z1 := Z1') hlag'
  have hs1' : D'.rb D'.cvar ≠ 1 := by rw [hself']; exact hself
  let x' : Nat → ν' → K := fun s v => lay'.val (X' s) (.inl v)
  let x : Nat → ν → K := fun s => x' s ∘ f
  have h1 : SolvesUnderSpell (Spec.asSolved D) (lagVal lay st) (eps' ∘ g) x l k := by
    rw [hst]
    exact hD _ _ _ (C148_paths_solve h' hlag' hs1' hl' hk' st' eps' X' hX')
  have hprev : ∀ s, prev (lagVal lay' st' ∘ f) x s = prev (lagVal lay' st') x' s ∘ f := fun s => by cases s <;> rfl
  have hsh : ∀ s, shockAt (eps' ∘ g) s = shockAt eps' s ∘ g := fun s => by cases s <;> rfl
  have h2 : Spec.JoinsLinear lay mod st (eps' ∘ g) x (l + k) := by
    intro s hs
    obtain ⟨r', h1, h2⟩ := hX' s
    have e1 : elapsed l k s = (0, 0) := by
      unfold elapsed; split_ifs <;> refine Prod.ext ?_ ?_ <;> dsimp only <;> omega
    rw [e1] at h1
    obtain ⟨r, hr⟩ := expected_exists h (Nat.zero_le _) (Nat.zero_le _) (prev st (fun s => stateOf lay (x s)) s)
      (shockAt (eps' ∘ g) s)
    refine ⟨r, hr, fun v => ?_⟩
    rw [hsh] at hr
    show lay'.val (X' s) (.inl (f v)) = _
    rw [h2]
    refine (hlin _ _ _ r r' ?_ hr h1 v).symm
    rw [expected_lagVal h' hf' hl' hk' hX' s, lagVal_prev_of lay st x h.square, hst]
    exact hprev s
  have h3 := C148_unique_path h hlag hself hl hk st (eps' ∘ g) x h1 h2
  obtain ⟨c, hm⟩ := genSys_ok h.perm h.gen
  have g1 := (expectedPath_iff hm h.orc h.noTiny h.square h.states hf hl hk st (eps' ∘ g) _).1 h3 s
  have g2 := (expectedPath_iff hm h.orc h.noTiny h.square h.states hf hl hk st (eps' ∘ g) _).1 hX s
  rw [g2, ← g1, val_stateOf lay h.square]
  rfl

/-- **C140**: if `D'` contains the model `D` and the linear solutions agree on `D`, then the expected paths of the variables of `D`
agree for every spell that both tables hold. -/
theorem C140_core_paths (h : Succeeded lay orc lMax kMax sched mod) (h' : Succeeded lay' orc' lMax' kMax' sched' mod')
    (hD : Spec.Contains f g D' D) (hlin : Spec.SameLinearCore f g lay mod lay' mod') (hlag : Spec.LagsNotExpected D) (hlag' : Spec.LagsNotExpected D')
    (hself : D.rb D.cvar ≠ 1) (hself' : D'.rb D'.cvar = D.rb D.cvar)
    {l k : Nat} (hl : l ≤ lMax) (hk : k ≤ kMax) (hl' : l ≤ lMax') (hk' : k ≤ kMax')
    {st : p ⊕ z → K} {st' : p' ⊕ z' → K} (hst : lagVal lay st = lagVal lay' st' ∘ f) {eps' : ε' → K} {X : Nat → p ⊕ z → K}
    {X' : Nat → p' ⊕ z' → K} (hX : ExpectedPath mod l k st (eps' ∘ g) X) (hX' : ExpectedPath mod' l k st' eps' X') (s : Nat) (v : ν) :
    lay.val (X s) (.inl v) = lay'.val (X' s) (.inl (f v)) :=
  core_paths_of h h' hlin hlag hlag' hself hself' (fun _ _ _ hx => (hD.asSolved hself').solves hx) hl hk hl' hk' hst hX hX' s v

/-- What the search reads agrees. -/
theorem C140_core_reader (h : Succeeded lay orc lMax kMax sched mod) (h' : Succeeded lay' orc' lMax' kMax' sched' mod')
    (hD : Spec.Contains f g D' D) (hlin : Spec.SameLinearCore f g lay mod lay' mod') (hlag : Spec.LagsNotExpected D) (hlag' : Spec.LagsNotExpected D')
    (hself : D.rb D.cvar ≠ 1) (hself' : D'.rb D'.cvar = D.rb D.cvar)
    {st : p ⊕ z → K} {st' : p' ⊕ z' → K} (hst : lagVal lay st = lagVal lay' st' ∘ f) (eps' : ε' → K) (i : Fin 5) {l k : Nat}
    (hl : l ≤ lMax) (hk : k ≤ kMax) (hl' : l ≤ lMax') (hk' : k ≤ kMax') :
    checkCnst mod.tables (q0Of st (eps' ∘ g)) i l k = checkCnst mod'.tables (q0Of st' eps') i l k := by
  obtain ⟨c, hm⟩ := genSys_ok h.perm h.gen
  obtain ⟨M, hS⟩ := hm.eng
  obtain ⟨c', hm'⟩ := genSys_ok h'.perm h'.gen
  obtain ⟨M', hS'⟩ := hm'.eng
  have hsh : ∀ s, shockAt (eps' ∘ g) s = shockAt eps' s ∘ g := fun s => by cases s <;> rfl
  have hval : ∀ s, pathValue (ff lay) c (q0Of st (eps' ∘ g)) l k s = pathValue (ff lay') c' (q0Of st' eps') l k s := by
    intro s
    have e : ∀ s, (fun v => lay.val (xPath c l k (q0Of st (eps' ∘ g)) s) (.inl v)) =
        (fun v => lay'.val (xPath c' l k (q0Of st' eps') s) (.inl v)) ∘ f := fun s => funext fun v => ?_
    · rw [pathValue_at h hm hlag hself hl hk, pathValue_at h' hm' hlag' (by rw [hself']; exact hself) hl' hk', hst, hsh]
      have eF : (fun s v => lay.val (xPath c l k (q0Of st (eps' ∘ g)) s) (.inl v)) =
        fun s => (fun v => lay'.val (xPath c' l k (q0Of st' eps') s) (.inl v)) ∘ f := funext e
      rw [eF, e s, prev_comp, ← (hD.asSolved hself').ruleValue hself']
    exact C140_core_paths h h' hD hlin hlag hlag' hself hself' hl hk hl' hk' hst
      ((expectedPath_iff hm h.orc h.noTiny h.square h.states (noLagFwd_of_not_expected hlag) hl hk st (eps' ∘ g) _).2 fun _ => rfl)
      ((expectedPath_iff hm' h'.orc h'.noTiny h'.square h'.states (noLagFwd_of_not_expected hlag') hl' hk' st' eps' _).2 fun _ => rfl) s v
  unfold checkCnst
  rw [hS.shapeL, hS.shapeK, hS'.shapeL, hS'.shapeK, if_pos (by omega), if_pos (by omega), hS.rows, hS'.rows]
  have c1 : l < lMax + 1 ∧ k < kMax + 1 := by omega
  have c2 : l < lMax' + 1 ∧ k < kMax' + 1 := by omega
  simp only [c1, c2, and_self, if_true, bRows]
  cases slotAt l k i with
  | none => rfl
  | some s =>
    simp only [rowAt_value]
    exact congrArg Except.ok (hval s)

/-- **C140** for the transition with its search: the same spell, the same flag, the same values of the core. -/
theorem C140_core_transition (h : Succeeded lay orc lMax kMax sched mod) (h' : Succeeded lay' orc' lMax kMax sched' mod')
    (hk1 : 1 ≤ kMax) (hD : Spec.Contains f g D' D) (hlin : Spec.SameLinearCore f g lay mod lay' mod') (hlag : Spec.LagsNotExpected D)
    (hlag' : Spec.LagsNotExpected D') (hself : D.rb D.cvar ≠ 1) (hself' : D'.rb D'.cvar = D.rb D.cvar)
    {st : p ⊕ z → K} {st' : p' ⊕ z' → K} (hst : lagVal lay st = lagVal lay' st' ∘ f) (eps' : ε' → K) :
    ∃ r r', tFunc mod st (eps' ∘ g) .none false = .ok r ∧ tFunc mod' st' eps' .none false = .ok r' ∧ r.l = r'.l ∧ r.k = r'.k ∧
      r.flag = r'.flag ∧ (∀ v, lay.val r.state (.inl v) = lay'.val r'.state (.inl (f v))) ∧
      lagVal lay r.state = lagVal lay' r'.state ∘ f := by
  obtain ⟨c, hm⟩ := genSys_ok h.perm h.gen
  obtain ⟨M, hS⟩ := hm.eng
  obtain ⟨c', hm'⟩ := genSys_ok h'.perm h'.gen
  obtain ⟨M', hS'⟩ := hm'.eng
  have := h.states
  have := h'.states
  have hrd : checkCnst mod.tables (q0Of st (eps' ∘ g)) = checkCnst mod'.tables (q0Of st' eps') := by
    funext i l k
    by_cases hlk : l < lMax + 1 ∧ k < kMax + 1
    · exact C140_core_reader h h' hD hlin hlag hlag' hself hself' hst eps' i (by omega) (by omega) (by omega) (by omega)
    · unfold checkCnst
      rw [hS.shapeL, hS.shapeK, hS'.shapeL, hS'.shapeK, if_neg hlk, if_neg hlk]
  have hxb : mod.xbar = mod'.xbar := by rw [hm.xbar, hm'.xbar]; exact hD.xbar.symm
  obtain ⟨l, k, flag, hf, hl, hk, -⟩ := findLk_cases (xbar := mod.xbar) (checkCnst_reads hS (q0Of st (eps' ∘ g))) (by omega) (by omega)
  have hf' := hf
  rw [hrd, hxb] at hf'
  have hX := (expectedPath_iff hm h.orc h.noTiny h.square h.states (noLagFwd_of_not_expected hlag) (show l ≤ lMax by omega)
    (show k ≤ kMax by omega) st (eps' ∘ g) _).2 fun _ => rfl
  have hX' := (expectedPath_iff hm' h'.orc h'.noTiny h'.square h'.states (noLagFwd_of_not_expected hlag') (show l ≤ lMax by omega)
    (show k ≤ kMax by omega) st' eps' _).2 fun _ => rfl
  have hv := C140_core_paths h h' hD hlin hlag hlag' hself hself' (show l ≤ lMax by omega)
    (show k ≤ kMax by omega) (by omega) (by omega) hst hX hX' 0
  refine ⟨_, _, tFunc_find hm st (eps' ∘ g) hf (by omega) (by omega), tFunc_find hm' st' eps' hf' (by omega) (by omega), rfl, rfl, rfl,
    hv, ?_⟩
  have e1 := expected_lagVal h (noLagFwd_of_not_expected hlag) (show l ≤ lMax by omega) (show k ≤ kMax by omega) hX 1
  have e2 := expected_lagVal h' (noLagFwd_of_not_expected hlag') (show l ≤ lMax by omega) (show k ≤ kMax by omega) hX' 1
  refine e1.trans (Eq.trans ?_ (congrArg (· ∘ f) e2.symm))
  funext v
  exact hv v

/-- **C140** for simulations: over any sequence of shocks the core has the same equilibria, the same flag and the same path. -/
theorem C140_core_simulation (h : Succeeded lay orc lMax kMax sched mod) (h' : Succeeded lay' orc' lMax kMax sched' mod')
    (hk1 : 1 ≤ kMax) (hD : Spec.Contains f g D' D) (hlin : Spec.SameLinearCore f g lay mod lay' mod') (hlag : Spec.LagsNotExpected D)
    (hlag' : Spec.LagsNotExpected D') (hself : D.rb D.cvar ≠ 1) (hself' : D'.rb D'.cvar = D.rb D.cvar) (es' : List (ε' → K))
    {st : p ⊕ z → K} {st' : p' ⊕ z' → K} (hst : lagVal lay st = lagVal lay' st' ∘ f) :
    ∃ res res', simLoop mod false st (es'.map (· ∘ g)) = .ok res ∧ simLoop mod' false st' es' = .ok res' ∧ res.LK = res'.LK ∧
      res.flag = res'.flag ∧
      res.X.tail.map (fun x v => lay.val x (.inl v)) = res'.X.tail.map (fun x v => lay'.val x (.inl (f v))) := by
  suffices ∃ res res', simLoop mod false st (es'.map (· ∘ g)) = .ok res ∧ simLoop mod' false st' es' = .ok res' ∧ res.LK = res'.LK ∧
      res.flag = res'.flag ∧ (∃ X X', res.X = st :: X ∧ res'.X = st' :: X' ∧
        X.map (fun x v => lay.val x (.inl v)) = X'.map (fun x v => lay'.val x (.inl (f v)))) by
    obtain ⟨res, res', h1, h2, h3, h4, X, X', h5, h6, h7⟩ := this
    exact ⟨res, res', h1, h2, h3, h4, by rw [h5, h6]; exact h7⟩
  induction es' generalizing st st' with
  | nil => exact ⟨_, _, rfl, rfl, rfl, rfl, [], [], rfl, rfl, rfl⟩
  | cons e es ih =>
    obtain ⟨r, r', h1, h2, h3, h4, h5, h6, h7⟩ := C140_core_transition h h' hk1 hD hlin hlag hlag' hself hself' hst e
    obtain ⟨res, res', g1, g2, g3, g4, X, X', g5, g6, g7⟩ := ih h7
    refine ⟨⟨st :: res.X, (r.l, r.k) :: res.LK, r.flag ||| res.flag⟩, ⟨st' :: res'.X, (r'.l, r'.k) :: res'.LK, r'.flag ||| res'.flag⟩,
      by simp only [List.map_cons, simLoop, h1, g1], by simp only [simLoop, h2, g2], ?_, ?_, res.X, res'.X, rfl, rfl, ?_⟩
    · simp only [h3, h4, g3]
    · simp only [h5, g4]
    · rw [g5, g6, List.map_cons, List.map_cons, g7]
      congr 1
      funext v
      exact h6 v

/-- The declared model has at most one unconstrained path with the property `P` per starting point and shock. -/
def Spec.Determinate (P : (Nat → ν → K) → Prop) (D : Declared E ν ε K) : Prop :=
  ∀ xlag eps x y, SolvesUnderSpell D xlag eps x 0 0 → SolvesUnderSpell D xlag eps y 0 0 → P x → P y → x = y

/-- When do the linear solutions agree?  If the core is determinate among the paths with `P` (say, the bounded ones) and both
linear solutions generate such paths.  Nothing is assumed about the additional equations. -/
theorem C140_linear_of_determinate (h : Succeeded lay orc lMax kMax sched mod) (h' : Succeeded lay' orc' lMax' kMax' sched' mod')
    (hD : Spec.Contains f g D' D) (hlag : Spec.LagsNotExpected D) (hlag' : Spec.LagsNotExpected D') (hself : D.rb D.cvar ≠ 1) (hself' : D'.rb D'.cvar = D.rb D.cvar)
    {P : (Nat → ν → K) → Prop} (hdet : Spec.Determinate P (Spec.asSolved D))
    (hP : ∀ st eps X, ExpectedPath mod 0 0 st eps X → P (fun s v => lay.val (X s) (.inl v)))
    (hP' : ∀ st eps X, ExpectedPath mod' 0 0 st eps X → P (fun s v => lay'.val (X s) (.inl (f v)))) :
    Spec.SameLinearCore f g lay mod lay' mod' := by
  intro st st' eps' r r' hst hr hr' v
  obtain ⟨c, hm⟩ := genSys_ok h.perm h.gen
  obtain ⟨c', hm'⟩ := genSys_ok h'.perm h'.gen
  have hs1' : D'.rb D'.cvar ≠ 1 := by rw [hself']; exact hself
  have hX := (expectedPath_iff hm h.orc h.noTiny h.square h.states (noLagFwd_of_not_expected hlag) (Nat.zero_le _) (Nat.zero_le _) st
    (eps' ∘ g) _).2 fun _ => rfl
  have hX' := (expectedPath_iff hm' h'.orc h'.noTiny h'.square h'.states (noLagFwd_of_not_expected hlag') (Nat.zero_le _) (Nat.zero_le _) st'
    eps' _).2 fun _ => rfl
  have s1 := C148_paths_solve h hlag hself (Nat.zero_le _) (Nat.zero_le _) st _ _ hX
  have s2 := (hD.asSolved hself').solves (C148_paths_solve h' hlag' hs1' (Nat.zero_le _) (Nat.zero_le _) st' _ _ hX')
  rw [← hst] at s2
  have e := hdet _ _ _ _ s1 s2 (hP _ _ _ hX) (hP' _ _ _ hX')
  have e0 := congrFun (congrFun e 0) v
  obtain ⟨r1, a1, a2⟩ := hX 0
  obtain ⟨r2, b1, b2⟩ := hX' 0
  have k1 : r1 = r := by
    have : tFunc mod st (eps' ∘ g) (.pair 0 0) false = .ok r1 := a1
    rw [hr] at this
    exact (Except.ok.inj this).symm
  have k2 : r2 = r' := by
    have : tFunc mod' st' eps' (.pair 0 0) false = .ok r2 := b1
    rw [hr'] at this
    exact (Except.ok.inj this).symm
  subst k1 k2
  rw [← a2, ← b2]
  exact e0

/-- If every entry of the state converges to zero, so does every variable. -/
theorem diesOut_val {X : Nat → p ⊕ z → K} (hX : Spec.DiesOut X) : Spec.DiesOut (fun s v => lay.val (X s) (.inl v)) := by
  intro d hd
  obtain ⟨N, hN⟩ := hX d hd
  refine ⟨N, fun n hn v => ?_⟩
  show |lay.val (X n) (.inl v)| ≤ d
  by_cases h1 : ∃ i, lay.zi i = .inl v
  · obtain ⟨i, hi⟩ := h1
    rw [← hi, lay.val_z]
    exact hN n hn _
  by_cases h2 : ∃ j, lay.pi j = .inl v
  · obtain ⟨j, hj⟩ := h2
    rw [← hj, lay.val_p]
    exact hN n hn _
  unfold Layout.val
  rw [Finset.sum_eq_zero, Finset.sum_eq_zero, add_zero, abs_zero]
  · exact hd.le
  · intro j _; rw [if_neg fun h => h2 ⟨j, h⟩]
  · intro i _; rw [if_neg fun h => h1 ⟨i, h⟩]

/-- ... in particular if both linear models return to their steady state and the core has one such path. -/
theorem C140_linear_of_stable (h : Succeeded lay orc lMax kMax sched mod) (h' : Succeeded lay' orc' lMax' kMax' sched' mod')
    (hD : Spec.Contains f g D' D) (hlag : Spec.LagsNotExpected D) (hlag' : Spec.LagsNotExpected D') (hself : D.rb D.cvar ≠ 1) (hself' : D'.rb D'.cvar = D.rb D.cvar)
    (hs : Spec.LinearStable mod) (hs' : Spec.LinearStable mod') (hdet : Spec.Determinate Spec.DiesOut (Spec.asSolved D)) :
    Spec.SameLinearCore f g lay mod lay' mod' := by
  refine C140_linear_of_determinate h h' hD hlag hlag' hself hself' hdet (fun st eps X hX => ?_) (fun st eps X hX => ?_)
  · exact diesOut_val (C132_expected_paths_return hs hX)
  · intro d hd
    obtain ⟨N, hN⟩ := diesOut_val (lay := lay') (C132_expected_paths_return hs' hX) d hd
    exact ⟨N, fun n hn v => hN n hn (f v)⟩

end Core

/-- Two declarations of one model contain each other, with the same names. -/
theorem Spec.Contains.of_same {D : Declared E ν ε K} {D' : Declared E' ν ε K} (h : SameModel D D') : Contains id id D' D := by
  refine ⟨fun a b c e => (h.eqs a b c e).2, h.cvar.symm, fun x => ?_, fun x => ?_, fun x => ?_, h.xbar.symm⟩
  · rw [h.rb]; rfl
  · rw [h.rc]; rfl
  · rw [h.rd]; rfl

/-- **C104**: the hypothesis on the linear solutions follows if both return to the steady state and the declared equations have one such
path. -/
theorem C104_linear_of_stable {D : Declared E ν ε K} {Z0 : Matrix o ν K} {Z1 : o → K} {tol : K}
    [DecidablePred (inall tol (yaml D Z0 Z1))] {lay : Layout tol (yaml D Z0 Z1) H z p} {orc : Oracle (Rows E H ε) (z ⊕ ε) p K}
    {lMax kMax : Nat} {sched : Nat → List Nat} {mod : Model z ε p o K}
    {D' : Declared E' ν ε K} {Z0' : Matrix o' ν K} {Z1' : o' → K} {tol' : K} [DecidablePred (inall tol' (yaml D' Z0' Z1'))]
    {lay' : Layout tol' (yaml D' Z0' Z1') H' z' p'} {orc' : Oracle (Rows E' H' ε) (z' ⊕ ε) p' K} {lMax' kMax' : Nat}
    {sched' : Nat → List Nat} {mod' : Model z' ε p' o' K}
    (h : Succeeded lay orc lMax kMax sched mod) (h' : Succeeded lay' orc' lMax' kMax' sched' mod')
    (hD : Spec.SameModel D D') (hlag : Spec.LagsNotExpected D) (hself : D.rb D.cvar ≠ 1)
    (hs : Spec.LinearStable mod) (hs' : Spec.LinearStable mod') (hdet : Spec.Determinate Spec.DiesOut (Spec.asSolved D)) :
    Spec.SameLinear lay mod lay' mod' :=
  C140_linear_of_stable (f := id) (g := id) h h' (.of_same hD) hlag (hD.lagsNotExpected hlag) hself (by rw [← hD.rb, ← hD.cvar])
    hs hs' hdet

end Pydsge
