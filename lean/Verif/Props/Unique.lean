import Verif.Props.ConLag
import Verif.Props.SolutionEx
import Verif.Props.Sim

/-!
# C103, C104, C105: the computed paths are the only solution; equivalent declarations and larger tables change nothing
-/

set_option autoImplicit false
set_option linter.unusedSectionVars false
set_option linter.unusedSimpArgs false

namespace Pydsge

open Matrix Pydsge.Engine Pydsge.Spec Pydsge.Tools Pydsge.GenSys

variable {E ν ε o K : Type} [Fintype E] [Fintype ν] [Fintype ε] [Fintype o]
  [DecidableEq E] [DecidableEq ν] [DecidableEq ε] [Field K] [LinearOrder K] [IsStrictOrderedRing K]
variable {H z p : Type} [DecidableEq H] [Fintype H] [Fintype z] [Fintype p] [DecidableEq z] [DecidableEq p]

section Yaml
variable {D : Declared E ν ε K} {Z0 : Matrix o ν K} {Z1 : o → K} {tol : K} [DecidablePred (inall tol (yaml D Z0 Z1))]
  {lay : Layout tol (yaml D Z0 Z1) H z p}
  {orc : Oracle (Rows E H ε) (z ⊕ ε) p K} {lMax kMax : Nat} {sched : Nat → List Nat} {mod : Model z ε p o K}

theorem Spec.asSolved_of (D : Declared E ν ε K) (hlag : D.rc = 0) (hsh : D.rb D.cvar = 0 ∨ D.rd = 0) : Spec.asSolved D = D := by
  cases D
  simp only [Spec.asSolved] at *
  subst hlag
  congr 1
  · funext v; exact neg_zero
  · funext e
    rcases hsh with hsh | hsh
    · rw [hsh, sub_zero, one_mul]
    · rw [hsh]; exact mul_zero _

/-- **C103**: a path of the declared variables that solves the declared model under the spell `(l,k)` and follows the linear
solution once the spell is over is the path that `t_func` generates under `(l,k)`. -/
theorem C103_unique_path (h : Succeeded lay orc lMax kMax sched mod) (hlag : D.rc = 0) (hself : D.rb D.cvar ≠ 1)
    (hsh : D.rb D.cvar = 0 ∨ D.rd = 0) {l k : Nat} (hl : l ≤ lMax) (hk : k ≤ kMax)
    (st0 : p ⊕ z → K) (eps : ε → K) (x : Nat → ν → K) (hx : SolvesUnderSpell D (lagVal lay st0) eps x l k)
    (hj : Spec.JoinsLinear lay mod st0 eps x (l + k)) :
    ExpectedPath mod l k st0 eps (fun s => stateOf lay (x s)) :=
  C148_unique_path h (.of_rc hlag) hself hl hk st0 eps x (by rwa [Spec.asSolved_of D hlag hsh]) hj

/-- **C103**, as an equivalence: the paths of `t_func` under `(l,k)` are exactly the solutions of the declared model under
`(l,k)` that end on the linear solution. -/
theorem C103_characterisation (h : Succeeded lay orc lMax kMax sched mod) (hlag : D.rc = 0) (hself : D.rb D.cvar ≠ 1)
    (hsh : D.rb D.cvar = 0 ∨ D.rd = 0) {l k : Nat} (hl : l ≤ lMax) (hk : k ≤ kMax)
    (st0 : p ⊕ z → K) (eps : ε → K) (X : Nat → p ⊕ z → K) :
    ExpectedPath mod l k st0 eps X ↔ ∃ x, (∀ s, X s = stateOf lay (x s)) ∧
      SolvesUnderSpell D (lagVal lay st0) eps x l k ∧ Spec.JoinsLinear lay mod st0 eps x (l + k) := by
  have := C148_characterisation h (.of_rc hlag) hself hl hk st0 eps X
  rwa [Spec.asSolved_of D hlag hsh] at this

/-- Every entry of the state vector is the lag of a declared variable. -/
theorem lag_of_state (ht : NoTiny tol (yaml D Z0 Z1)) (hlag : Spec.LagsNotExpected D) (i : z) :
    ∃ v, ∀ st : p ⊕ z → K, lagVal lay st v = st (.inr i) := by
  cases hz : lay.zi i with
  | inr a => exact ⟨lay.hyb a, fun st => by rw [lagVal_hyb, ← hz, lay.val_z]⟩
  | inl v =>
    refine ⟨v, fun st => ?_⟩
    have hq := (lay.zi_range (.inl v)).1 ⟨i, hz⟩
    have hn : ¬ inall tol (yaml D Z0 Z1) v := by
      intro hi
      rcases hq with hq | hq
      · apply hq
        rintro ((e | a) | e) <;> simp only [CC1, hi, if_true, abs_zero, ht.pos]
      · apply hq
        have hA : ∃ e, D.A e v ≠ 0 := by
          by_contra hA
          push Not at hA
          refine hi.1 fun i => ?_
          show |D.A i v| < tol
          rw [hA i, abs_zero]; exact ht.pos
        obtain ⟨e, he⟩ := hA
        have hrc : D.rc v = 0 := by
          by_contra hrc
          exact he (hlag v hrc e)
        have : fcY (H := H) (ε := ε) (yaml D Z0 Z1) (.inl (.inl v)) = 0 := by
          show -(-(-D.rc v) / _) = 0
          rw [hrc]; simp
        unfold fast0
        rw [this, abs_zero]
        exact ht.pos
    unfold lagVal
    rw [if_neg hn, ← hz, lay.val_z]

/-- States with the same lags of the declared variables have the same state entries. -/
theorem state_of_lags (ht : NoTiny tol (yaml D Z0 Z1)) (hlag : Spec.LagsNotExpected D) {st st' : p ⊕ z → K}
    (h : lagVal lay st = lagVal lay st') (i : z) : st (.inr i) = st' (.inr i) := by
  obtain ⟨v, hv⟩ := lag_of_state (lay := lay) ht hlag i
  rw [← hv st, ← hv st', h]

/-- The value that the search reads for period `s` of the path under `(l,k)`, in terms of the solved model. -/
theorem pathValue_at {c : Nat → Nat → Cell (z ⊕ ε) p K} (h : Succeeded lay orc lMax kMax sched mod)
    (hm : SolvedModel lay orc lMax kMax mod c) (hlag : Spec.LagsNotExpected D) (hself : D.rb D.cvar ≠ 1) {l k : Nat} (hl : l ≤ lMax)
    (hk : k ≤ kMax) (st0 : p ⊕ z → K) (eps : ε → K) (s : Nat) :
    pathValue (ff lay) c (q0Of st0 eps) l k s =
      Spec.ruleValue (Spec.asSolved D) (prev (lagVal lay st0) (fun s v => lay.val (xPath c l k (q0Of st0 eps) s) (.inl v)) s)
        (shockAt eps s) (fun v => lay.val (xPath c l k (q0Of st0 eps) s) (.inl v)) := by
  have hf := noLagFwd_of_not_expected (Z0 := Z0) (Z1 := Z1) hlag
  have e1 := q0Of_prev hm h.orc h.noTiny h.square hf hl hk st0 eps s
  have e2 := pathValue_solved (c := c) h hlag hself (l := (elapsed l k s).1) (k := (elapsed l k s).2)
    (prev st0 (xPath c l k (q0Of st0 eps)) s) (shockAt eps s)
  rw [e1, ← xPath_loc, expected_lagVal h hf hl hk
    ((expectedPath_iff hm h.orc h.noTiny h.square h.states hf hl hk st0 eps _).2 fun _ => rfl)] at e2
  rw [← e2]
  unfold pathValue
  simp only [pPath, qPath, locCell_zero, elapsed_eq_loc]
  rfl

end Yaml

/-- Two declarations of the same model: the same solutions of the equations, the same constraint. -/
structure Spec.SameModel {E E' : Type} (D : Declared E ν ε K) (D' : Declared E' ν ε K) : Prop where
  eqs : ∀ (a b c : ν → K) (e : ε → K), D.A *ᵥ a + D.B *ᵥ b + D.C *ᵥ c + D.D *ᵥ e = 0 ↔
    D'.A *ᵥ a + D'.B *ᵥ b + D'.C *ᵥ c + D'.D *ᵥ e = 0
  cvar : D.cvar = D'.cvar
  rb : D.rb = D'.rb
  rc : D.rc = D'.rc
  rd : D.rd = D'.rd
  xbar : D.xbar = D'.xbar

/-- Reordering, scaling or adding up equations (any invertible recombination) declares the same model. -/
theorem Spec.SameModel.of_recombined {E' : Type} [Fintype E'] [DecidableEq E'] (D : Declared E ν ε K)
    (P : Matrix E' E K) (R : Matrix E E' K) (hRP : R * P = 1) :
    SameModel D { D with A := P * D.A, B := P * D.B, C := P * D.C, D := P * D.D } := by
  refine ⟨fun a b c e => ?_, rfl, rfl, rfl, rfl, rfl⟩
  simp only [← mulVec_mulVec, ← mulVec_add]
  constructor
  · intro h; rw [h, mulVec_zero]
  · intro h
    have := congrArg (fun v => R *ᵥ v) h
    simpa only [mulVec_mulVec, hRP, one_mulVec, mulVec_zero] using this

theorem Spec.SameModel.solves {E E' : Type} {D : Declared E ν ε K} {D' : Declared E' ν ε K} (h : SameModel D D') {xlag : ν → K}
    {eps : ε → K} {x : Nat → ν → K} {l k : Nat} (hx : SolvesUnderSpell D xlag eps x l k) :
    SolvesUnderSpell D' xlag eps x l k := by
  refine ⟨fun s => (h.eqs _ _ _ _).1 (hx.eqs s), fun s hs => ?_, fun s hs => ?_⟩
  · have := hx.slack s hs
    unfold notional at this ⊢
    rw [← h.cvar, ← h.rb, ← h.rc, ← h.rd]
    exact this
  · rw [← h.cvar, ← h.xbar]
    exact hx.binding s hs

theorem Spec.SameModel.asSolved {E E' : Type} {D : Declared E ν ε K} {D' : Declared E' ν ε K} (h : SameModel D D') :
    SameModel (Spec.asSolved D) (Spec.asSolved D') := by
  refine ⟨h.eqs, h.cvar, h.rb, ?_, ?_, h.xbar⟩
  · funext v
    show -D.rc v = -D'.rc v
    rw [h.rc]
  · funext e
    show (1 - D.rb D.cvar) * D.rd e = (1 - D'.rb D'.cvar) * D'.rd e
    rw [h.rb, h.cvar, h.rd]

theorem Spec.SameModel.lagsNotExpected {E E' : Type} {D : Declared E ν ε K} {D' : Declared E' ν ε K} (h : SameModel D D')
    (hD : Spec.LagsNotExpected D) : Spec.LagsNotExpected D' := by
  intro v hv e
  have h1 := (h.eqs (Pi.single v 1) 0 0 0).1 (by
    funext i
    simp only [mulVec_single_one, mulVec_zero, add_zero, Pi.zero_apply, col_apply]
    exact hD v (by rw [h.rc]; exact hv) i)
  have h2 := congrFun h1 e
  simpa only [mulVec_single_one, mulVec_zero, add_zero, Pi.zero_apply, col_apply] using h2

theorem Spec.SameModel.ruleValue {E E' : Type} {D : Declared E ν ε K} {D' : Declared E' ν ε K} (h : SameModel D D')
    (xlag : ν → K) (eps : ε → K) (x : ν → K) : Spec.ruleValue D xlag eps x = Spec.ruleValue D' xlag eps x := by
  unfold Spec.ruleValue
  rw [h.rb, h.cvar, h.rc, h.rd]

section Same
variable {E' o' H' z' p' : Type} [Fintype E'] [Fintype o'] [DecidableEq E'] [DecidableEq H'] [Fintype H'] [Fintype z']
  [Fintype p'] [DecidableEq z'] [DecidableEq p']
variable {D : Declared E ν ε K} {Z0 : Matrix o ν K} {Z1 : o → K} {tol : K} [DecidablePred (inall tol (yaml D Z0 Z1))]
  {lay : Layout tol (yaml D Z0 Z1) H z p}
  {orc : Oracle (Rows E H ε) (z ⊕ ε) p K} {lMax kMax : Nat} {sched : Nat → List Nat} {mod : Model z ε p o K}
variable {D' : Declared E' ν ε K} {Z0' : Matrix o' ν K} {Z1' : o' → K} {tol' : K} [DecidablePred (inall tol' (yaml D' Z0' Z1'))]
  {lay' : Layout tol' (yaml D' Z0' Z1') H' z' p'}
  {orc' : Oracle (Rows E' H' ε) (z' ⊕ ε) p' K} {lMax' kMax' : Nat} {sched' : Nat → List Nat} {mod' : Model z' ε p' o' K}

/-- The two linear solutions agree: from states with the same lags, the same shocks give the same values of the declared
variables. -/
def Spec.SameLinear (lay : Layout tol (yaml D Z0 Z1) H z p) (mod : Model z ε p o K)
    (lay' : Layout tol' (yaml D' Z0' Z1') H' z' p') (mod' : Model z' ε p' o' K) : Prop :=
  ∀ st st' eps r r', lagVal lay st = lagVal lay' st' → tFunc mod st eps (.pair 0 0) false = .ok r →
    tFunc mod' st' eps (.pair 0 0) false = .ok r' → ∀ v, lay.val r.state (.inl v) = lay'.val r'.state (.inl v)

/-- **C104**: if a model is declared in two ways (equations reordered, scaled or recombined, other observables) and the two
linear solutions agree, then the expected paths agree for every spell that both tables hold. -/
theorem C104_same_paths (h : Succeeded lay orc lMax kMax sched mod) (h' : Succeeded lay' orc' lMax' kMax' sched' mod')
    (hD : Spec.SameModel D D') (hlin : Spec.SameLinear lay mod lay' mod') (hlag : Spec.LagsNotExpected D) (hself : D.rb D.cvar ≠ 1)
    {l k : Nat} (hl : l ≤ lMax) (hk : k ≤ kMax) (hl' : l ≤ lMax') (hk' : k ≤ kMax')
    {st : p ⊕ z → K} {st' : p' ⊕ z' → K} (hst : lagVal lay st = lagVal lay' st') {eps : ε → K} {X : Nat → p ⊕ z → K}
    {X' : Nat → p' ⊕ z' → K} (hX : ExpectedPath mod l k st eps X) (hX' : ExpectedPath mod' l k st' eps X') (s : Nat) (v : ν) :
    lay.val (X s) (.inl v) = lay'.val (X' s) (.inl v) := by
  have hf := noLagFwd_of_not_expected (Z0 := Z0) (Z1 := Z1) hlag
  have hlag' : Spec.LagsNotExpected D' := hD.lagsNotExpected hlag
  have hself' : D'.rb D'.cvar ≠ 1 := by rw [← hD.rb, ← hD.cvar]; exact hself
  have hf' := noLagFwd_of_not_expected (Z0 := Z0') (Z1 := Z1') hlag'
  let x : Nat → ν → K := fun s v => lay.val (X s) (.inl v)
  have h1 : SolvesUnderSpell (Spec.asSolved D') (lagVal lay' st') eps x l k := by
    rw [← hst]
    exact hD.asSolved.solves (C148_paths_solve h hlag hself hl hk st eps X hX)
  have h2 : Spec.JoinsLinear lay' mod' st' eps x (l + k) := by
    intro s hs
    obtain ⟨r, h1, h2⟩ := hX s
    have e1 : elapsed l k s = (0, 0) := by
      unfold elapsed; split_ifs <;> refine Prod.ext ?_ ?_ <;> dsimp only <;> omega
    rw [e1] at h1
    obtain ⟨r', hr'⟩ := expected_exists h' (Nat.zero_le _) (Nat.zero_le _) (prev st' (fun s => stateOf lay' (x s)) s)
      (shockAt eps s)
    refine ⟨r', hr', fun v => ?_⟩
    show lay.val (X s) (.inl v) = _
    rw [h2]
    refine hlin _ _ _ r r' ?_ h1 hr' v
    rw [expected_lagVal h hf hl hk hX s, lagVal_prev_of lay' st' x h'.square, hst]
  have h3 := C148_unique_path h' hlag' hself' hl' hk' st' eps x h1 h2
  obtain ⟨c', hm'⟩ := genSys_ok h'.perm h'.gen
  have g1 := (expectedPath_iff hm' h'.orc h'.noTiny h'.square h'.states hf' hl' hk' st' eps _).1 h3 s
  have g2 := (expectedPath_iff hm' h'.orc h'.noTiny h'.square h'.states hf' hl' hk' st' eps _).1 hX' s
  rw [g2, ← g1, val_stateOf lay' h'.square]
  rfl

/-- The values of the constraint that the two tables encode agree on the common part. -/
theorem same_values {c : Nat → Nat → Cell (z ⊕ ε) p K} {c' : Nat → Nat → Cell (z' ⊕ ε) p' K}
    (h : Succeeded lay orc lMax kMax sched mod) (h' : Succeeded lay' orc' lMax' kMax' sched' mod')
    (hm : SolvedModel lay orc lMax kMax mod c) (hm' : SolvedModel lay' orc' lMax' kMax' mod' c')
    (hD : Spec.SameModel D D') (hlin : Spec.SameLinear lay mod lay' mod') (hlag : Spec.LagsNotExpected D) (hself : D.rb D.cvar ≠ 1)
    {st : p ⊕ z → K} {st' : p' ⊕ z' → K} (hst : lagVal lay st = lagVal lay' st') (eps : ε → K) {l k : Nat}
    (hl : l ≤ lMax) (hk : k ≤ kMax) (hl' : l ≤ lMax') (hk' : k ≤ kMax') (s : Nat) :
    pathValue (ff lay) c (q0Of st eps) l k s = pathValue (ff lay') c' (q0Of st' eps) l k s := by
  have hlag' : Spec.LagsNotExpected D' := hD.lagsNotExpected hlag
  have hself' : D'.rb D'.cvar ≠ 1 := by rw [← hD.rb, ← hD.cvar]; exact hself
  have e : ∀ s v, lay.val (xPath c l k (q0Of st eps) s) (.inl v) = lay'.val (xPath c' l k (q0Of st' eps) s) (.inl v) := fun s v =>
    C104_same_paths h h' hD hlin hlag hself hl hk hl' hk' hst
      ((expectedPath_iff hm h.orc h.noTiny h.square h.states (noLagFwd_of_not_expected hlag) hl hk st eps _).2 fun _ => rfl)
      ((expectedPath_iff hm' h'.orc h'.noTiny h'.square h'.states (noLagFwd_of_not_expected hlag') hl' hk' st' eps _).2 fun _ => rfl) s v
  rw [pathValue_at h hm hlag hself hl hk, pathValue_at h' hm' hlag' hself' hl' hk', hD.asSolved.ruleValue, hst]
  simp only [e]

/-- What the search reads agrees for the two declarations. -/
theorem C104_same_reader (h : Succeeded lay orc lMax kMax sched mod) (h' : Succeeded lay' orc' lMax' kMax' sched' mod')
    (hD : Spec.SameModel D D') (hlin : Spec.SameLinear lay mod lay' mod') (hlag : Spec.LagsNotExpected D) (hself : D.rb D.cvar ≠ 1)
    {st : p ⊕ z → K} {st' : p' ⊕ z' → K} (hst : lagVal lay st = lagVal lay' st') (eps : ε → K) (i : Fin 5) {l k : Nat}
    (hl : l ≤ lMax) (hk : k ≤ kMax) (hl' : l ≤ lMax') (hk' : k ≤ kMax') :
    checkCnst mod.tables (q0Of st eps) i l k = checkCnst mod'.tables (q0Of st' eps) i l k := by
  obtain ⟨c, hm⟩ := genSys_ok h.perm h.gen
  obtain ⟨M, hS⟩ := hm.eng
  obtain ⟨c', hm'⟩ := genSys_ok h'.perm h'.gen
  obtain ⟨M', hS'⟩ := hm'.eng
  have hval := same_values h h' hm hm' hD hlin hlag hself hst eps hl hk hl' hk'
  unfold checkCnst
  rw [hS.shapeL, hS.shapeK, hS'.shapeL, hS'.shapeK, if_pos (by omega), if_pos (by omega), hS.rows, hS'.rows]
  have c1 : l < lMax + 1 ∧ k < kMax + 1 := by omega
  have c2 : l < lMax' + 1 ∧ k < kMax' + 1 := by omega
  simp only [c1, c2, and_self, if_true, bRows]
  cases slotAt l k i with
  | none => rfl
  | some s =>
    simp only [rowAt_value]
    exact congrArg Except.ok (hval s)

/-- **C104** for the transition with its endogenous search: the same spell, the same flag, the same values of all declared
variables, for states with the same lags and for every shock. -/
theorem C104_same_transition (h : Succeeded lay orc lMax kMax sched mod) (h' : Succeeded lay' orc' lMax kMax sched' mod')
    (hk1 : 1 ≤ kMax) (hD : Spec.SameModel D D') (hlin : Spec.SameLinear lay mod lay' mod') (hlag : Spec.LagsNotExpected D)
    (hself : D.rb D.cvar ≠ 1) {st : p ⊕ z → K} {st' : p' ⊕ z' → K} (hst : lagVal lay st = lagVal lay' st') (eps : ε → K) :
    ∃ r r', tFunc mod st eps .none false = .ok r ∧ tFunc mod' st' eps .none false = .ok r' ∧ r.l = r'.l ∧ r.k = r'.k ∧
      r.flag = r'.flag ∧ (∀ v, lay.val r.state (.inl v) = lay'.val r'.state (.inl v)) ∧
      lagVal lay r.state = lagVal lay' r'.state := by
  have hlag' : Spec.LagsNotExpected D' := hD.lagsNotExpected hlag
  obtain ⟨c, hm⟩ := genSys_ok h.perm h.gen
  obtain ⟨M, hS⟩ := hm.eng
  obtain ⟨c', hm'⟩ := genSys_ok h'.perm h'.gen
  obtain ⟨M', hS'⟩ := hm'.eng
  have := h.states
  have := h'.states
  have hrd : checkCnst mod.tables (q0Of st eps) = checkCnst mod'.tables (q0Of st' eps) := by
    funext i l k
    by_cases hlk : l < lMax + 1 ∧ k < kMax + 1
    · exact C104_same_reader h h' hD hlin hlag hself hst eps i (by omega) (by omega) (by omega) (by omega)
    · unfold checkCnst
      rw [hS.shapeL, hS.shapeK, hS'.shapeL, hS'.shapeK, if_neg hlk, if_neg hlk]
  have hxb : mod.xbar = mod'.xbar := by rw [hm.xbar, hm'.xbar]; exact hD.xbar
  obtain ⟨l, k, flag, hf, hl, hk, -⟩ := findLk_cases (xbar := mod.xbar) (checkCnst_reads hS (q0Of st eps)) (by omega) (by omega)
  have hf' := hf
  rw [hrd, hxb] at hf'
  have hX := (expectedPath_iff hm h.orc h.noTiny h.square h.states (noLagFwd_of_not_expected hlag) (show l ≤ lMax by omega)
    (show k ≤ kMax by omega) st eps _).2 fun _ => rfl
  have hX' := (expectedPath_iff hm' h'.orc h'.noTiny h'.square h'.states (noLagFwd_of_not_expected hlag') (show l ≤ lMax by omega)
    (show k ≤ kMax by omega) st' eps _).2 fun _ => rfl
  have hv := C104_same_paths h h' hD hlin hlag hself (show l ≤ lMax by omega)
    (show k ≤ kMax by omega) (by omega) (by omega) hst hX hX' 0
  refine ⟨_, _, tFunc_find hm st eps hf (by omega) (by omega), tFunc_find hm' st' eps hf' (by omega) (by omega), rfl, rfl, rfl,
    hv, ?_⟩
  have e1 := expected_lagVal h (noLagFwd_of_not_expected hlag) (show l ≤ lMax by omega) (show k ≤ kMax by omega) hX 1
  have e2 := expected_lagVal h' (noLagFwd_of_not_expected hlag') (show l ≤ lMax by omega) (show k ≤ kMax by omega) hX' 1
  refine e1.trans (Eq.trans ?_ e2.symm)
  funext v
  exact hv v

/-- **C104** for simulations: over any sequence of shocks, the same equilibria, the same flag, the same paths of all declared
variables. -/
theorem C104_same_simulation (h : Succeeded lay orc lMax kMax sched mod) (h' : Succeeded lay' orc' lMax kMax sched' mod')
    (hk1 : 1 ≤ kMax) (hD : Spec.SameModel D D') (hlin : Spec.SameLinear lay mod lay' mod') (hlag : Spec.LagsNotExpected D)
    (hself : D.rb D.cvar ≠ 1) (es : List (ε → K)) {st : p ⊕ z → K} {st' : p' ⊕ z' → K}
    (hst : lagVal lay st = lagVal lay' st') :
    ∃ res res', simLoop mod false st es = .ok res ∧ simLoop mod' false st' es = .ok res' ∧ res.LK = res'.LK ∧
      res.flag = res'.flag ∧ res.X.tail.map (fun x v => lay.val x (.inl v)) = res'.X.tail.map (fun x v => lay'.val x (.inl v)) := by
  suffices ∃ res res', simLoop mod false st es = .ok res ∧ simLoop mod' false st' es = .ok res' ∧ res.LK = res'.LK ∧
      res.flag = res'.flag ∧ (∃ X X', res.X = st :: X ∧ res'.X = st' :: X' ∧
        X.map (fun x v => lay.val x (.inl v)) = X'.map (fun x v => lay'.val x (.inl v))) by
    obtain ⟨res, res', h1, h2, h3, h4, X, X', h5, h6, h7⟩ := this
    exact ⟨res, res', h1, h2, h3, h4, by rw [h5, h6]; exact h7⟩
  induction es generalizing st st' with
  | nil => exact ⟨_, _, rfl, rfl, rfl, rfl, [], [], rfl, rfl, rfl⟩
  | cons e es ih =>
    obtain ⟨r, r', h1, h2, h3, h4, h5, h6, h7⟩ := C104_same_transition h h' hk1 hD hlin hlag hself hst e
    obtain ⟨res, res', g1, g2, g3, g4, X, X', g5, g6, g7⟩ := ih h7
    refine ⟨⟨st :: res.X, (r.l, r.k) :: res.LK, r.flag ||| res.flag⟩, ⟨st' :: res'.X, (r'.l, r'.k) :: res'.LK, r'.flag ||| res'.flag⟩,
      by simp only [simLoop, h1, g1], by simp only [simLoop, h2, g2], ?_, ?_, res.X, res'.X, rfl, rfl, ?_⟩
    · simp only [h3, h4, g3]
    · simp only [h5, g4]
    · rw [g5, g6, List.map_cons, List.map_cons, g7]
      congr 1
      funext v
      exact h6 v

/-- **C105**: an equilibrium with a binding constraint that was found with the bounds `l_max, k_max` is found with any larger
`l_max` too, and, if the constraint binds at once, also with any larger `k_max`; all declared variables are the same. -/
theorem C105_larger_tables (h : Succeeded lay orc lMax kMax sched mod) (h' : Succeeded lay' orc' lMax' kMax' sched' mod')
    (hk1 : 1 ≤ kMax) (hD : Spec.SameModel D D') (hlin : Spec.SameLinear lay mod lay' mod') (hlag : Spec.LagsNotExpected D)
    (hself : D.rb D.cvar ≠ 1) {st : p ⊕ z → K} {st' : p' ⊕ z' → K} (hst : lagVal lay st = lagVal lay' st') (eps : ε → K)
    (hL : lMax ≤ lMax') (hL' : lMax' < 999) (hK : kMax ≤ kMax') {r : Step z p K}
    (hr : tFunc mod st eps .none false = .ok r) (hflag : r.flag = 0) (hb : 0 < r.k) (hor : kMax' = kMax ∨ r.l = 0) :
    ∃ r', tFunc mod' st' eps .none false = .ok r' ∧ r'.l = r.l ∧ r'.k = r.k ∧ r'.flag = 0 ∧
      ∀ v, lay'.val r'.state (.inl v) = lay.val r.state (.inl v) := by
  have hlag' : Spec.LagsNotExpected D' := hD.lagsNotExpected hlag
  obtain ⟨c, hm⟩ := genSys_ok h.perm h.gen
  obtain ⟨M, hS⟩ := hm.eng
  obtain ⟨c', hm'⟩ := genSys_ok h'.perm h'.gen
  obtain ⟨M', hS'⟩ := hm'.eng
  have := h.states
  have := h'.states
  have hxb : mod.xbar = mod'.xbar := by rw [hm.xbar, hm'.xbar]; exact hD.xbar
  have hv : ∀ (i : Fin 5) l k, l ≤ lMax → k ≤ kMax → pathValue (ff lay) c (q0Of st eps) l k (slotPeriod l k i) =
      pathValue (ff lay') c' (q0Of st' eps) l k (slotPeriod l k i) := fun i l k hl hk =>
    same_values h h' hm hm' hD hlin hlag hself hst eps hl hk (by omega) (by omega) _
  have hcons : ∀ l k, l ≤ lMax → k ≤ kMax →
      (Consistent (fun i l k => pathValue (ff lay) c (q0Of st eps) l k (slotPeriod l k i)) mod.xbar l k ↔
       Consistent (fun i l k => pathValue (ff lay') c' (q0Of st' eps) l k (slotPeriod l k i)) mod'.xbar l k) := by
    intro l k hl hk
    rw [← hxb]
    constructor
    · rintro ⟨a1, a2, a3, a4, a5, a6⟩
      simp only [hv _ l k hl hk] at a2 a3 a4 a5 a6
      exact ⟨a1, a2, a3, a4, a5, a6⟩
    · rintro ⟨a1, a2, a3, a4, a5, a6⟩
      simp only [← hv _ l k hl hk] at a2 a3 a4 a5 a6
      exact ⟨a1, a2, a3, a4, a5, a6⟩
  rcases findLk_spec (xbar := mod.xbar) (checkCnst_reads hS (q0Of st eps)) (by omega) (by omega) (by omega) with
    ⟨-, hf⟩ | ⟨hnb, l, k, hlc, hf⟩ | ⟨-, -, k, flag, a1, a2, a3, hf⟩
  · rw [tFunc_find hm st eps hf (by omega) (by omega)] at hr
    cases hr
    exact absurd hb (lt_irrefl 0)
  · obtain ⟨b1, b2, b3, b4⟩ := hlc
    rw [tFunc_find hm st eps hf (by omega) (by omega)] at hr
    cases hr
    simp only at hb hor hflag ⊢
    rcases findLk_spec (xbar := mod'.xbar) (checkCnst_reads hS' (q0Of st' eps)) (by omega) (by omega) (by omega) with
      ⟨hnb', hf'⟩ | ⟨hnb', l', k', hlc', hf'⟩ | ⟨-, hno, _⟩
    · exfalso
      apply hnb
      intro j hj
      have := hnb' j (by omega)
      rw [← hxb] at this
      simpa only [hv 2 j 0 (by omega) (by omega)] using this
    · obtain ⟨d1, d2, d3, d4⟩ := hlc'
      have e1 := d4 l k (by omega) (by omega) ((hcons l k (by omega) (by omega)).1 b3)
      have hl'k' : l' ≤ lMax ∧ k' ≤ kMax := by
        unfold LexLt at e1
        simp only at e1
        omega
      have e2 := b4 l' k' (by omega) (by omega) ((hcons l' k' hl'k'.1 hl'k'.2).2 d3)
      have hlk : l' = l ∧ k' = k := by
        unfold LexLt at e1 e2
        simp only at e1 e2
        omega
      obtain ⟨rfl, rfl⟩ := hlk
      refine ⟨_, tFunc_find hm' st' eps hf' (by omega) (by omega), rfl, rfl, rfl, fun v => ?_⟩
      exact (C104_same_paths h h' hD hlin hlag hself hl'k'.1 hl'k'.2 (by omega)
        (by omega) hst
        ((expectedPath_iff hm h.orc h.noTiny h.square h.states (noLagFwd_of_not_expected hlag) hl'k'.1 hl'k'.2 st eps _).2 fun _ => rfl)
        ((expectedPath_iff hm' h'.orc h'.noTiny h'.square h'.states (noLagFwd_of_not_expected hlag') (by omega) (by omega) st' eps _).2
          fun _ => rfl) 0 v).symm
    · exact absurd ((hcons l k (by omega) (by omega)).1 b3) (hno l k (by omega) (by omega))
  · rw [tFunc_find hm st eps hf (by omega) (by omega)] at hr
    cases hr
    simp only at hflag
    omega

end Same

section Bounds
variable {D : Declared E ν ε K} {Z0 : Matrix o ν K} {Z1 : o → K} {tol : K} [DecidablePred (inall tol (yaml D Z0 Z1))]
  {lay : Layout tol (yaml D Z0 Z1) H z p} {orc : Oracle (Rows E H ε) (z ⊕ ε) p K} {lMax kMax lMax' kMax' : Nat}
  {sched sched' : Nat → List Nat} {mod mod' : Model z ε p o K}

theorem Spec.SameModel.refl (D : Declared E ν ε K) : SameModel D D := ⟨fun _ _ _ _ => Iff.rfl, rfl, rfl, rfl, rfl, rfl⟩

/-- Solving the same model twice with the same linear solver gives the same linear solution. -/
theorem sameLinear_bounds (h : Succeeded lay orc lMax kMax sched mod) (h' : Succeeded lay orc lMax' kMax' sched' mod')
    (hlag : Spec.LagsNotExpected D) : Spec.SameLinear lay mod lay mod' := by
  intro st st' eps r r' hst hr hr' v
  obtain ⟨c, hm⟩ := genSys_ok h.perm h.gen
  obtain ⟨M, hS⟩ := hm.eng
  obtain ⟨c', hm'⟩ := genSys_ok h'.perm h'.gen
  obtain ⟨M', hS'⟩ := hm'.eng
  have := h.states
  have g1 := tFunc_pair hm st eps (Nat.zero_le lMax) (Nat.zero_le kMax)
  have g2 := tFunc_pair hm' st' eps (Nat.zero_le lMax') (Nat.zero_le kMax')
  simp only [Nat.cast_zero] at g1 g2
  rw [g1] at hr
  rw [g2] at hr'
  cases hr
  cases hr'
  have hk := hm.kl.symm.trans hm'.kl
  simp only [Except.ok.injEq, Prod.mk.injEq] at hk
  have hc : c 0 0 = c' 0 0 := by rw [hS.complete.start, hS'.complete.start, hk.1, hk.2]
  have hq : q0Of st eps = q0Of st' eps := by
    funext j
    rcases j with i | e
    · exact state_of_lags h.noTiny hlag hst i
    · rfl
  simp only [xPath_zero, hc, hq]

/-- **C105** for one model and one linear solver: only the bounds (and the order of the parallel loop) differ. -/
theorem C105_larger_bounds (h : Succeeded lay orc lMax kMax sched mod) (h' : Succeeded lay orc lMax' kMax' sched' mod')
    (hk1 : 1 ≤ kMax) (hlag : Spec.LagsNotExpected D) (hself : D.rb D.cvar ≠ 1) (st : p ⊕ z → K) (eps : ε → K) (hL : lMax ≤ lMax')
    (hL' : lMax' < 999) (hK : kMax ≤ kMax') {r : Step z p K} (hr : tFunc mod st eps .none false = .ok r) (hflag : r.flag = 0)
    (hb : 0 < r.k) (hor : kMax' = kMax ∨ r.l = 0) :
    ∃ r', tFunc mod' st eps .none false = .ok r' ∧ r'.l = r.l ∧ r'.k = r.k ∧ r'.flag = 0 ∧
      ∀ v, lay.val r'.state (.inl v) = lay.val r.state (.inl v) :=
  C105_larger_tables h h' hk1 (.refl D) (sameLinear_bounds h h' hlag) hlag hself rfl eps hL hL' hK hr hflag hb hor

end Bounds
end Pydsge
