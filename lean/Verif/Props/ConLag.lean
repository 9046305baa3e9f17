import Verif.Lemmas.Unique

/-!
# C148: what is solved when the constraint contains lags, or shocks together with the constrained variable itself

C23 shows that the coefficients of such constraints do not arrive as declared.  Here is what they arrive as, and that the paths
are then exactly the solutions of that other model.
-/

set_option autoImplicit false
set_option linter.unusedSectionVars false
set_option linter.unusedSimpArgs false

namespace Pydsge

open Matrix Pydsge.Engine Pydsge.Spec Pydsge.Tools Pydsge.GenSys

variable {E ν ε o K : Type} [Fintype E] [Fintype ν] [Fintype ε] [Fintype o]
  [DecidableEq E] [DecidableEq ν] [DecidableEq ε] [Field K] [LinearOrder K] [IsStrictOrderedRing K]
variable {H z p : Type} [DecidableEq H] [Fintype H] [Fintype z] [Fintype p] [DecidableEq z] [DecidableEq p]

section General
variable {tol : K} {m : Input E ν ε o K} [DecidablePred (inall tol m)] {lay : Layout tol m H z p}
  {orc : Oracle (Rows E H ε) (z ⊕ ε) p K} {lMax kMax : Nat} {sched : Nat → List Nat} {mod : Model z ε p o K}

/-- In the states of an expected path the auxiliary lags carry the value of their variable. -/
theorem expected_stateOf (h : Succeeded lay orc lMax kMax sched mod) (hf : NoLagFwd m) {l k : Nat} (hl : l ≤ lMax)
    (hk : k ≤ kMax) {st0 : p ⊕ z → K} {eps : ε → K} {X : Nat → p ⊕ z → K} (hX : ExpectedPath mod l k st0 eps X) (s : Nat) :
    X s = stateOf lay (fun v => lay.val (X s) (.inl v)) := by
  obtain ⟨c, hm⟩ := genSys_ok h.perm h.gen
  rw [(expectedPath_iff hm h.orc h.noTiny h.square h.states hf hl hk st0 eps X).1 hX s]
  refine val_ext lay fun w => ?_
  rw [val_stateOf lay h.square]
  rcases w with v | a
  · rfl
  · exact aux_eq hm h.orc h.noTiny h.square hf hl hk _ s a

/-- The lags that a path hands over to the next period. -/
theorem expected_lagVal (h : Succeeded lay orc lMax kMax sched mod) (hf : NoLagFwd m) {l k : Nat} (hl : l ≤ lMax)
    (hk : k ≤ kMax) {st0 : p ⊕ z → K} {eps : ε → K} {X : Nat → p ⊕ z → K} (hX : ExpectedPath mod l k st0 eps X) (s : Nat) :
    lagVal lay (prev st0 X s) = prev (lagVal lay st0) (fun s v => lay.val (X s) (.inl v)) s := by
  cases s with
  | zero => rfl
  | succ s =>
    show lagVal lay (X s) = _
    rw [expected_stateOf h hf hl hk hX s, lagVal_stateOf lay h.square]
    rfl

/-- Expected paths start with any of their steps; an imposed step inside the tables always succeeds. -/
theorem expected_exists (h : Succeeded lay orc lMax kMax sched mod) {l k : Nat} (hl : l ≤ lMax) (hk : k ≤ kMax)
    (st : p ⊕ z → K) (eps : ε → K) : ∃ r, tFunc mod st eps (.pair l k) false = .ok r := by
  obtain ⟨c, hm⟩ := genSys_ok h.perm h.gen
  have := h.states
  exact ⟨_, tFunc_pair hm st eps hl hk⟩

end General

/-- The model that is solved in place of `D`: the constraint's lags have the opposite sign, and its shocks are scaled by one
minus the coefficient of the constrained variable on its own right hand side.  The equations are those of `D`. -/
def Spec.asSolved (D : Declared E ν ε K) : Declared E ν ε K :=
  { D with rc := fun v => -D.rc v, rd := fun e => (1 - D.rb D.cvar) * D.rd e }

/-- What has to be written to get the model `D` solved. -/
def Spec.toWrite (D : Declared E ν ε K) : Declared E ν ε K :=
  { D with rc := fun v => -D.rc v, rd := fun e => D.rd e / (1 - D.rb D.cvar) }

/-- No variable whose lag is in the constraint is expected in an equation. -/
def Spec.LagsNotExpected (D : Declared E ν ε K) : Prop := ∀ v, D.rc v ≠ 0 → ∀ e, D.A e v = 0

/-- The value of the constrained variable that satisfies the constraint equation, given all other variables. -/
def Spec.ruleValue (D : Declared E ν ε K) (xlag : ν → K) (eps : ε → K) (x : ν → K) : K :=
  ((∑ v, if v = D.cvar then 0 else D.rb v * x v) + D.rc ⬝ᵥ xlag + D.rd ⬝ᵥ eps) / (1 - D.rb D.cvar)

theorem Spec.ruleValue_eq (D : Declared E ν ε K) (xlag : ν → K) (eps : ε → K) (x : ν → K) :
    Spec.ruleValue D xlag eps x =
      (D.rb ⬝ᵥ x - D.rb D.cvar * x D.cvar + D.rc ⬝ᵥ xlag + D.rd ⬝ᵥ eps) / (1 - D.rb D.cvar) := by
  unfold Spec.ruleValue
  congr 3
  have : ∀ v, (if v = D.cvar then 0 else D.rb v * x v) = D.rb v * x v - if v = D.cvar then D.rb v * x v else 0 := by
    intro v; split_ifs <;> ring
  simp only [this, dotProduct, Finset.sum_sub_distrib, Finset.sum_ite_eq', Finset.mem_univ, if_true]

section Yaml
variable {D : Declared E ν ε K} {Z0 : Matrix o ν K} {Z1 : o → K} {tol : K} [DecidablePred (inall tol (yaml D Z0 Z1))]
  {lay : Layout tol (yaml D Z0 Z1) H z p}
  {orc : Oracle (Rows E H ε) (z ⊕ ε) p K} {lMax kMax : Nat} {sched : Nat → List Nat} {mod : Model z ε p o K}

/-- The path `x` of the declared variables joins the linear (unconstrained) solution of the package in period `n`. -/
def Spec.JoinsLinear (lay : Layout tol (yaml D Z0 Z1) H z p) (mod : Model z ε p o K) (st0 : p ⊕ z → K) (eps : ε → K)
    (x : Nat → ν → K) (n : Nat) : Prop :=
  ∀ s, n ≤ s → ∃ r, tFunc mod (prev st0 (fun s => stateOf lay (x s)) s) (shockAt eps s) (.pair 0 0) false = .ok r ∧
    ∀ v, x s v = lay.val r.state (.inl v)

theorem Spec.LagsNotExpected.of_rc (h : D.rc = 0) : Spec.LagsNotExpected D := by
  intro v hv
  exact absurd (congrFun h v) hv

theorem noLagFwd_of_not_expected (h : Spec.LagsNotExpected D) : NoLagFwd (yaml D Z0 Z1) := by
  intro v hv e
  refine h v (fun h0 => hv ?_) e
  show -D.rc v = 0
  rw [h0, neg_zero]

theorem fcY_lag (hself : D.rb D.cvar ≠ 1) (v : ν) :
    fcY (H := H) (ε := ε) (yaml D Z0 Z1) (.inl (.inl v)) = -D.rc v / (1 - D.rb D.cvar) := by
  show -(-(-D.rc v) / ((if D.cvar = D.cvar then (1:K) else 0) - D.rb D.cvar)) = _
  rw [if_pos rfl]; ring

theorem fcY_shock (e : ε) : fcY (H := H) (ε := ε) (yaml D Z0 Z1) (.inr e) = D.rd e := by
  show -(-D.rd e) = _
  rw [neg_neg]

theorem fbN_rb (v : ν) : fbN (yaml D Z0 Z1) v = (D.rb v - if v = D.cvar then 1 else 0) / (1 - D.rb D.cvar) := by
  show -((if v = D.cvar then (1:K) else 0) - D.rb v) / ((if D.cvar = D.cvar then (1:K) else 0) - D.rb D.cvar) = _
  rw [if_pos rfl, neg_sub]

theorem sum_fbN (x : ν → K) : ∑ v, fbN (yaml D Z0 Z1) v * x v = (D.rb ⬝ᵥ x - x D.cvar) / (1 - D.rb D.cvar) := by
  have : ∀ v, fbN (yaml D Z0 Z1) v * x v = (D.rb v * x v - if v = D.cvar then x v else 0) / (1 - D.rb D.cvar) := by
    intro v
    rw [fbN_rb]
    split_ifs <;> ring
  simp only [this, dotProduct, ← Finset.sum_div, Finset.sum_sub_distrib, Finset.sum_ite_eq', Finset.mem_univ, if_true]

/-- Variables whose lag is in the constraint have no auxiliary lag. -/
theorem val_eq_lagVal (ht : NoTiny tol (yaml D Z0 Z1)) (hf : Spec.LagsNotExpected D) (st : p ⊕ z → K) {v : ν} (hv : D.rc v ≠ 0) :
    lay.val st (.inl v) = lagVal lay st v := by
  have hn : ¬ inall tol (yaml D Z0 Z1) v := by
    rintro ⟨h1, h2⟩
    have h0 : ∀ i, |(yaml D Z0 Z1).AA0 i v| < tol := by
      intro i
      have : (yaml D Z0 Z1).AA0 i v = 0 := hf v hv i
      rw [this, abs_zero]; exact ht.pos
    first | exact h1 h0 | exact h2 h0
  unfold lagVal
  rw [if_neg hn]

theorem sum_fcY (hself : D.rb D.cvar ≠ 1) (ht : NoTiny tol (yaml D Z0 Z1)) (hf : Spec.LagsNotExpected D) (st : p ⊕ z → K) :
    ∑ v, fcY (H := H) (ε := ε) (yaml D Z0 Z1) (.inl (.inl v)) * lay.val st (.inl v) =
      -(D.rc ⬝ᵥ lagVal lay st) / (1 - D.rb D.cvar) := by
  rw [dotProduct, ← Finset.sum_neg_distrib, Finset.sum_div]
  refine Finset.sum_congr rfl fun v _ => ?_
  rw [fcY_lag hself]
  by_cases hv : D.rc v = 0
  · rw [hv]; ring
  · rw [val_eq_lagVal ht hf st hv]; ring

/-- **C148**: the expected paths of a declared model, with whatever lags and shocks in its constraint, solve the declared
equations and the constraint with the opposite sign of its lags and scaled shocks. -/
theorem C148_paths_solve (h : Succeeded lay orc lMax kMax sched mod) (hf : Spec.LagsNotExpected D)
    (hself : D.rb D.cvar ≠ 1) {l k : Nat} (hl : l ≤ lMax) (hk : k ≤ kMax)
    (st0 : p ⊕ z → K) (eps : ε → K) (X : Nat → p ⊕ z → K) (hX : ExpectedPath mod l k st0 eps X) :
    SolvesUnderSpell (Spec.asSolved D) (lagVal lay st0) eps (fun s v => lay.val (X s) (.inl v)) l k := by
  obtain ⟨c, hm⟩ := genSys_ok h.perm h.gen
  have hf' := noLagFwd_of_not_expected (Z0 := Z0) (Z1 := Z1) hf
  have hXs := (expectedPath_iff hm h.orc h.noTiny h.square h.states hf' hl hk st0 eps X).1 hX
  have hx : (fun s v => lay.val (X s) (.inl v)) = declPath lay c l k (q0Of st0 eps) := by
    funext s v; rw [hXs s]; rfl
  rw [hx]
  refine ⟨fun s => ?_, fun s hs => ?_, fun s hs => ?_⟩
  · exact eqs_hold hm h.orc h.noTiny h.square hf' hl hk st0 (q0Of st0 eps) (fun i => rfl) s
  · have h1 := slack_value hm h.orc h.noTiny h.square hf' hl hk st0 (q0Of st0 eps) (fun i => rfl) s hs
    have hd : (1 - D.rb D.cvar) ≠ 0 := sub_ne_zero.2 (Ne.symm hself)
    rw [sum_fbN, sum_fcY hself h.noTiny hf, lagVal_prev hm h.orc h.noTiny h.square hf' hl hk st0 (q0Of st0 eps) s] at h1
    simp only [fcY_shock] at h1
    have e1 : ∑ e, D.rd e * shockAt (fun e => q0Of st0 eps (.inr e)) s e = D.rd ⬝ᵥ shockAt eps s := rfl
    rw [e1] at h1
    have e2 : (fun v => -D.rc v) = -D.rc := rfl
    have e3 : (fun e => (1 - D.rb D.cvar) * D.rd e) = (1 - D.rb D.cvar) • D.rd := rfl
    simp only [notional, Spec.asSolved, e2, e3, neg_dotProduct, smul_dotProduct, smul_eq_mul]
    field_simp at h1
    linear_combination -h1
  · exact con_bind hm h.orc hk (q0Of st0 eps) s hs

/-- The slack rows, from the solved model. -/
theorem rows_slack_of_solved (ht : NoTiny tol (yaml D Z0 Z1)) (hE : Fintype.card E + 1 = Fintype.card ν)
    (hf : Spec.LagsNotExpected D) (hself : D.rb D.cvar ≠ 1) (st0 : p ⊕ z → K) (eps : ε → K) (x : Nat → ν → K)
    (s : Nat) (h : EqsHold D (lagVal lay st0) eps x s)
    (hc : x s D.cvar = notional (Spec.asSolved D) (lagVal lay st0) eps x s) (r : Rows E H ε) :
    (∑ y, AAc (H := H) (yaml D Z0 Z1) r y * yVec lay (stateOf lay (x (s+1))) 0 y) +
      (∑ y, BBU (yaml D Z0 Z1) lay.hyb r y * yVec lay (stateOf lay (x s)) 0 y) +
      ∑ y, CCU tol (yaml D Z0 Z1) lay.hyb r y * yVec lay (prev st0 (fun s => stateOf lay (x s)) s) (shockAt eps s) y = 0 := by
  rcases r with r | r
  · exact rows_of_eqs lay st0 eps x hE s h r
  have e6 : ∀ v, fcY (H := H) (ε := ε) (yaml D Z0 Z1) (.inl (.inr v)) = 0 := fun _ => rfl
  have hd : (1 - D.rb D.cvar) ≠ 0 := sub_ne_zero.2 (Ne.symm hself)
  simp only [AAc, BBU, CCU, fbY, e6, fcY_shock, Fintype.sum_sum_type, zero_mul, Finset.sum_const_zero, add_zero, zero_add, yVec]
  rw [sum_fcY hself ht hf, lagVal_prev_of lay st0 x hE]
  simp only [val_stateOf lay hE, Sum.elim_inl]
  rw [sum_fbN]
  have e2 : (fun v => -D.rc v) = -D.rc := rfl
  have e3 : (fun e => (1 - D.rb D.cvar) * D.rd e) = (1 - D.rb D.cvar) • D.rd := rfl
  simp only [notional, Spec.asSolved, e2, e3, neg_dotProduct, smul_dotProduct, smul_eq_mul] at hc
  have e1 : ∑ e, D.rd e * shockAt eps s e = D.rd ⬝ᵥ shockAt eps s := rfl
  rw [e1]
  field_simp
  linear_combination -hc

theorem step_stateOf (h : Succeeded lay orc lMax kMax sched mod) (hf : NoLagFwd (yaml D Z0 Z1)) (st : p ⊕ z → K)
    (eps : ε → K) {r : Step z p K} (hr : tFunc mod st eps (.pair 0 0) false = .ok r) :
    r.state = stateOf lay (fun v => lay.val r.state (.inl v)) := by
  obtain ⟨c, hm⟩ := genSys_ok h.perm h.gen
  have := h.states
  have h1 := tFunc_pair hm st eps (Nat.zero_le lMax) (Nat.zero_le kMax)
  simp only [Nat.cast_zero] at h1
  rw [h1] at hr
  cases hr
  refine val_ext lay fun w => ?_
  rw [val_stateOf lay h.square]
  rcases w with v | a
  · rfl
  · exact aux_eq hm h.orc h.noTiny h.square hf (Nat.zero_le _) (Nat.zero_le _) _ 0 a

/-- **C148**: and they are the only solutions of that model that end on the linear solution. -/
theorem C148_unique_path (h : Succeeded lay orc lMax kMax sched mod) (hf : Spec.LagsNotExpected D) (hself : D.rb D.cvar ≠ 1)
    {l k : Nat} (hl : l ≤ lMax) (hk : k ≤ kMax)
    (st0 : p ⊕ z → K) (eps : ε → K) (x : Nat → ν → K) (hx : SolvesUnderSpell (Spec.asSolved D) (lagVal lay st0) eps x l k)
    (hj : Spec.JoinsLinear lay mod st0 eps x (l + k)) :
    ExpectedPath mod l k st0 eps (fun s => stateOf lay (x s)) := by
  obtain ⟨c, hm⟩ := genSys_ok h.perm h.gen
  obtain ⟨M', hS⟩ := hm.eng
  have hz := h.states
  have hf' := noLagFwd_of_not_expected (Z0 := Z0) (Z1 := Z1) hf
  have hend : c 0 0 = ⟨mod.omg, 0, mod.lam, 0⟩ := hS.complete.start
  have htail : ∀ s, l + k ≤ s → pOf lay x s = mod.omg *ᵥ qOf lay st0 eps x s ∧
      qOf lay st0 eps x (s+1) = mod.lam *ᵥ qOf lay st0 eps x s := by
    intro s hs
    obtain ⟨r, h1, h2⟩ := hj s hs
    have h3 := tFunc_pair hm (prev st0 (fun s => stateOf lay (x s)) s) (shockAt eps s) (Nat.zero_le lMax) (Nat.zero_le kMax)
    simp only [Nat.cast_zero] at h3
    have h4 := step_stateOf h hf' _ _ h1
    have h5 : (fun v => lay.val r.state (.inl v)) = x s := funext fun v => (h2 v).symm
    rw [h5] at h4
    rw [h3] at h1
    cases h1
    simp only at h4
    have h6 : fullState (pPath c 0 0 (qOf lay st0 eps x s) 0) (qPath c 0 0 (qOf lay st0 eps x s) 1) = stateOf lay (x s) := h4
    have hp : pPath c 0 0 (qOf lay st0 eps x s) 0 = mod.omg *ᵥ qOf lay st0 eps x s := by
      simp only [pPath, qPath, locCell_zero, hend, add_zero]
    have hq : qPath c 0 0 (qOf lay st0 eps x s) 1 = mod.lam *ᵥ qOf lay st0 eps x s := by
      simp only [qPath, locCell_zero, hend, add_zero]
    constructor
    · rw [← hp]
      funext j
      exact (congrFun h6 (.inl j)).symm
    · rw [← hq]
      funext j
      rcases j with i | e
      · exact (congrFun h6 (.inr i)).symm
      · exact (shocks_vanish hm h.orc h.noTiny h.square hf' (Nat.zero_le _) (Nat.zero_le _) (qOf lay st0 eps x s) 0 e).symm
  have hT := sysOf_T12 h.orc
  obtain ⟨hQ, hP⟩ := path_unique hS hT.1 hT.2 hl hk (qOf lay st0 eps x) (pOf lay x)
    (fun s hs => (sysOf_slack h.orc _ _).2 (slack_of_rows lay st0 eps x h.noTiny h.square hf' s
      (rows_slack_of_solved h.noTiny h.square hf hself st0 eps x s (hx.eqs s) (hx.slack s (by unfold BindsAt; omega)))))
    (fun s h1 h2 => (sysOf_binding h.orc _ _).2 (binding_of_rows lay st0 eps x h.noTiny h.square hf' s
      (rows_binding_of lay st0 eps x h.square s (hx.eqs s) (hx.binding s ⟨h1, h2⟩))))
    htail
  rw [expectedPath_iff hm h.orc h.noTiny h.square h.states hf' hl hk]
  intro s
  rw [← fullState_of lay st0 eps x s, hP s, hQ (s+1)]
  rfl

/-- **C148**, as an equivalence. -/
theorem C148_characterisation (h : Succeeded lay orc lMax kMax sched mod) (hf : Spec.LagsNotExpected D)
    (hself : D.rb D.cvar ≠ 1) {l k : Nat} (hl : l ≤ lMax) (hk : k ≤ kMax)
    (st0 : p ⊕ z → K) (eps : ε → K) (X : Nat → p ⊕ z → K) :
    ExpectedPath mod l k st0 eps X ↔ ∃ x, (∀ s, X s = stateOf lay (x s)) ∧
      SolvesUnderSpell (Spec.asSolved D) (lagVal lay st0) eps x l k ∧ Spec.JoinsLinear lay mod st0 eps x (l + k) := by
  have hf' := noLagFwd_of_not_expected (Z0 := Z0) (Z1 := Z1) hf
  constructor
  · intro hX
    have e : ∀ s, X s = stateOf lay (fun v => lay.val (X s) (.inl v)) := expected_stateOf h hf' hl hk hX
    refine ⟨fun s v => lay.val (X s) (.inl v), e, C148_paths_solve h hf hself hl hk st0 eps X hX, ?_⟩
    intro s hs
    obtain ⟨r, h1, h2⟩ := hX s
    have e1 : elapsed l k s = (0, 0) := by
      unfold elapsed; split_ifs <;> refine Prod.ext ?_ ?_ <;> dsimp only <;> omega
    rw [e1] at h1
    refine ⟨r, ?_, fun v => by rw [← h2]⟩
    rw [← h1]
    congr 1
    cases s with
    | zero => rfl
    | succ s => exact (e s).symm
  · rintro ⟨x, h1, h2, h3⟩
    have : X = fun s => stateOf lay (x s) := funext h1
    rw [this]
    exact C148_unique_path h hf hself hl hk st0 eps x h2 h3

/-- **C148**: how far the path misses the declared constraint: it satisfies the declared model, too, if and only if in every
slack period twice the contribution of the lags and the unscaled part of the shocks cancel. -/
theorem C148_distance (h : Succeeded lay orc lMax kMax sched mod) (hf : Spec.LagsNotExpected D)
    (hself : D.rb D.cvar ≠ 1) {l k : Nat} (hl : l ≤ lMax) (hk : k ≤ kMax)
    (st0 : p ⊕ z → K) (eps : ε → K) (X : Nat → p ⊕ z → K) (hX : ExpectedPath mod l k st0 eps X) :
    SolvesUnderSpell D (lagVal lay st0) eps (fun s v => lay.val (X s) (.inl v)) l k ↔
      ∀ s, ¬ BindsAt l k s → 2 * (D.rc ⬝ᵥ lagVal lay (prev st0 X s)) + D.rb D.cvar * (D.rd ⬝ᵥ shockAt eps s) = 0 := by
  have hf' := noLagFwd_of_not_expected (Z0 := Z0) (Z1 := Z1) hf
  have hs := C148_paths_solve h hf hself hl hk st0 eps X hX
  have e2 : (fun v => -D.rc v) = -D.rc := rfl
  have e3 : (fun e => (1 - D.rb D.cvar) * D.rd e) = (1 - D.rb D.cvar) • D.rd := rfl
  have hsl := hs.slack
  simp only [notional, Spec.asSolved, e2, e3, neg_dotProduct, smul_dotProduct, smul_eq_mul] at hsl
  constructor
  · intro hd s hb
    have h1 := hd.slack s hb
    have h2 := hsl s hb
    rw [expected_lagVal h hf' hl hk hX s]
    unfold notional at h1
    linear_combination h2 - h1
  · intro hd
    refine ⟨hs.eqs, fun s hb => ?_, hs.binding⟩
    have h1 := hd s hb
    have h2 := hsl s hb
    rw [expected_lagVal h hf' hl hk hX s] at h1
    unfold notional
    linear_combination h2 - h1

/-- The value that the search reads for the first period, in terms of the solved model. -/
theorem pathValue_solved {c : Nat → Nat → Cell (z ⊕ ε) p K} (h : Succeeded lay orc lMax kMax sched mod)
    (hf : Spec.LagsNotExpected D) (hself : D.rb D.cvar ≠ 1) {l k : Nat} (st0 : p ⊕ z → K) (eps : ε → K) :
    pathValue (ff lay) c (q0Of st0 eps) l k 0 =
      Spec.ruleValue (Spec.asSolved D) (lagVal lay st0) eps (fun v => lay.val (xPath c l k (q0Of st0 eps) 0) (.inl v)) := by
  have hd : (1 - D.rb D.cvar) ≠ 0 := sub_ne_zero.2 (Ne.symm hself)
  have hf' := noLagFwd_of_not_expected (Z0 := Z0) (Z1 := Z1) hf
  let b : Cols ν H ε → K := fun y => if y = .inl (.inl (yaml D Z0 Z1).cvar) then 0 else fbY (H := H) (yaml D Z0 Z1) y
  have h1 := sum_cols lay h.square (fun y => b y * yVec lay (xPath c l k (q0Of st0 eps) 0)
    (fun e => qPath c l k (q0Of st0 eps) 1 (.inr e)) y)
  have hyq : ∀ j, yVec lay (xPath c l k (q0Of st0 eps) 0) (fun e => qPath c l k (q0Of st0 eps) 1 (.inr e)) (qi lay j) =
      qPath c l k (q0Of st0 eps) 1 j := by
    rintro (i | e)
    · simp only [qi, yVec, lay.val_z]; rfl
    · rfl
  have hyp : ∀ j, yVec lay (xPath c l k (q0Of st0 eps) 0) (fun e => qPath c l k (q0Of st0 eps) 1 (.inr e)) (.inl (lay.pi j)) =
      pPath c l k (q0Of st0 eps) 0 j := by
    intro j; simp only [yVec, lay.val_p]; rfl
  simp only [hyq, hyp] at h1
  have hbq : ∀ j, b (qi lay j) = (ff lay).fq1 j := fun j => rfl
  have hbp : ∀ j, b (.inl (lay.pi j)) = (ff lay).fp1 j := by
    intro j
    simp only [b, ff, Sum.inl.injEq]
  simp only [hbq, hbp] at h1
  have h2 : ∑ y, b y * yVec lay (xPath c l k (q0Of st0 eps) 0) (fun e => qPath c l k (q0Of st0 eps) 1 (.inr e)) y =
      (∑ v, if v = D.cvar then 0 else D.rb v * lay.val (xPath c l k (q0Of st0 eps) 0) (.inl v)) / (1 - D.rb D.cvar) := by
    simp only [Fintype.sum_sum_type, b, fbY, Sum.inl.injEq, reduceCtorEq, if_false, zero_mul, Finset.sum_const_zero, add_zero, yVec]
    rw [Finset.sum_div]
    refine Finset.sum_congr rfl fun v _ => ?_
    show (if v = D.cvar then 0 else fbN (yaml D Z0 Z1) v) * _ = _
    rw [fbN_rb]
    by_cases hv : v = D.cvar
    · simp only [hv, if_true]; ring
    · simp only [hv, if_false]; ring
  rw [h2] at h1
  have hlags := lay.sum_names h.square
    (fun w => fcY (H := H) (ε := ε) (yaml D Z0 Z1) (.inl w) * lay.val st0 w)
  have h3 : (ff lay).fq0 ⬝ᵥ qPath c l k (q0Of st0 eps) 0 = -(D.rc ⬝ᵥ lagVal lay st0) / (1 - D.rb D.cvar) + D.rd ⬝ᵥ eps := by
    have hpi : ∀ j, fcY (H := H) (ε := ε) (yaml D Z0 Z1) (.inl (lay.pi j)) = 0 := fun j =>
      CCU_zero h.noTiny lay.hyb (((lay.pi_range _).1 ⟨j, rfl⟩).2) (.inr ())
    have e6 : ∀ v, fcY (H := H) (ε := ε) (yaml D Z0 Z1) (.inl (.inr v)) = 0 := fun _ => rfl
    simp only [hpi, lay.val_z, zero_mul, Finset.sum_const_zero, add_zero] at hlags
    rw [Fintype.sum_sum_type] at hlags
    simp only [e6, zero_mul, Finset.sum_const_zero, add_zero] at hlags
    rw [sum_fcY hself h.noTiny hf] at hlags
    simp only [dotProduct, Fintype.sum_sum_type, ff, qi, fcY_shock]
    simp only [dotProduct] at hlags
    rw [hlags]
    rfl
  unfold pathValue
  rw [h3]
  have e2 : (fun v => -D.rc v) = -D.rc := rfl
  have e3 : (fun e => (1 - D.rb D.cvar) * D.rd e) = (1 - D.rb D.cvar) • D.rd := rfl
  simp only [Spec.ruleValue, Spec.asSolved, e2, e3, neg_dotProduct, smul_dotProduct, smul_eq_mul]
  simp only [dotProduct] at h1 ⊢
  field_simp at h1 ⊢
  linear_combination -h1

/-- **C148**: if `t_func` returns flag 0, the constrained variable in the new state is the maximum of `x_bar` and the value that
satisfies the constraint equation of the solved model in the same new state. -/
theorem C148_flag_zero_is_max (h : Succeeded lay orc lMax kMax sched mod) (hk1 : 1 ≤ kMax) (hlag : Spec.LagsNotExpected D)
    (hself : D.rb D.cvar ≠ 1) (st : p ⊕ z → K) (eps : ε → K) (r : Step z p K)
    (hr : tFunc mod st eps .none false = .ok r) (hflag : r.flag = 0) :
    lay.val r.state (.inl D.cvar) =
      max D.xbar (Spec.ruleValue (Spec.asSolved D) (lagVal lay st) eps (fun v => lay.val r.state (.inl v))) := by
  obtain ⟨c, hm⟩ := genSys_ok h.perm h.gen
  obtain ⟨M', hS⟩ := hm.eng
  have := h.states
  obtain ⟨l, k, flag, hf, hl, hk, hcase⟩ := findLk_cases (xbar := mod.xbar) (checkCnst_reads hS (q0Of st eps)) (by omega) (by omega)
  rw [tFunc_find hm st eps hf (by omega) (by omega)] at hr
  cases hr
  have hfb := fb0_cvar_ne (Z0 := Z0) (Z1 := Z1) hself
  simp only at hflag ⊢
  rw [← pathValue_solved h hlag hself st eps]
  have hxb : mod.xbar = D.xbar := hm.xbar
  have hslack := con_slack hm h.orc hfb (show l ≤ lMax by omega) (show k ≤ kMax by omega) (q0Of st eps) 0
  have hbind := con_bind (l := l) hm h.orc (show k ≤ kMax by omega) (q0Of st eps) 0
  have hd : lay.val (xPath c l k (q0Of st eps) 0) (.inl D.cvar) = declPath lay c l k (q0Of st eps) 0 (yaml D Z0 Z1).cvar := rfl
  rw [hd]
  rcases hcase with ⟨h1, h2, h3, h4⟩ | ⟨h1, h2⟩ | ⟨h1, h2, h3⟩
  · subst h1 h2
    rw [hslack (by unfold BindsAt; omega)]
    have := h4 0 (by omega)
    simp only [slotPeriod] at this
    rw [hxb] at this
    exact (max_eq_right this.le).symm
  · by_cases hl0 : l = 0
    · subst hl0
      rw [hbind ⟨le_rfl, by have := h2.binds; omega⟩]
      have := h2.first
      simp only [slotPeriod] at this
      rw [hxb] at this
      exact (max_eq_left this).symm
    · rw [hslack (by unfold BindsAt; omega)]
      have := h2.start (by omega)
      simp only [slotPeriod] at this
      rw [hxb] at this
      exact (max_eq_right this).symm
  · exact absurd hflag h3

end Yaml

/-- **C148**: writing the lags with the opposite sign and dividing the shocks gets any model solved as meant. -/
theorem C148_written_around (D : Declared E ν ε K) (hself : D.rb D.cvar ≠ 1) : Spec.asSolved (Spec.toWrite D) = D := by
  have hd : (1 - D.rb D.cvar) ≠ 0 := sub_ne_zero.2 (Ne.symm hself)
  cases D
  simp only [Spec.asSolved, Spec.toWrite, neg_neg] at *
  congr 1
  funext e
  exact mul_div_cancel₀ _ hd

end Pydsge
