import Verif.Lemmas.FromReduced
import Verif.Examples.Ex1
import Verif.Examples.Ex13
import Verif.Lemmas.RQExists
import Mathlib.Tactic.Linarith

/-!
# C171: a model is solved exactly if every spell determines its path
-/

set_option autoImplicit false
set_option linter.unusedSectionVars false
set_option linter.unusedSimpArgs false

namespace Pydsge

open Matrix Pydsge.Engine Pydsge.Spec Pydsge.Tools Pydsge.GenSys

variable {E ν ε o K : Type} [Fintype E] [Fintype ν] [Fintype ε] [Fintype o]
  [DecidableEq E] [DecidableEq ν] [DecidableEq ε] [Field K] [LinearOrder K] [IsStrictOrderedRing K]
variable {H z p : Type} [DecidableEq H] [Fintype H] [Fintype z] [Fintype p] [DecidableEq z] [DecidableEq p]
variable {D : Declared E ν ε K} {Z0 : Matrix o ν K} {Z1 : o → K} {tol : K} [DecidablePred (inall tol (yaml D Z0 Z1))]
  {lay : Layout tol (yaml D Z0 Z1) H z p}
  {orc orc' : Oracle (Rows E H ε) (z ⊕ ε) p K} {lMax kMax : Nat} {sched sched' : Nat → List Nat}
  {omg : Matrix p (z ⊕ ε) K} {lam : Matrix (z ⊕ ε) (z ⊕ ε) K}

/-- The values of the declared variables that the linear solution gives after the state `st` and the shocks `eps`. -/
def Spec.linStep (lay : Layout tol (yaml D Z0 Z1) H z p) (omg : Matrix p (z ⊕ ε) K) (lam : Matrix (z ⊕ ε) (z ⊕ ε) K)
    (st : p ⊕ z → K) (eps : ε → K) (v : ν) : K :=
  lay.val (fullState (omg *ᵥ q0Of st eps) (lam *ᵥ q0Of st eps)) (.inl v)

/-- The path `x` of the declared variables after the state `st0` and the shocks `eps`: the constraint is slack for `l` periods
and binds for `k` periods, and afterwards the linear solution is followed. -/
structure Spec.SpellSolution (lay : Layout tol (yaml D Z0 Z1) H z p) (omg : Matrix p (z ⊕ ε) K) (lam : Matrix (z ⊕ ε) (z ⊕ ε) K)
    (st0 : p ⊕ z → K) (eps : ε → K) (l k : Nat) (x : Nat → ν → K) : Prop where
  solves : SolvesUnderSpell (Spec.asSolved D) (lagVal lay st0) eps x l k
  joins : ∀ s, l + k ≤ s → x s = Spec.linStep lay omg lam (prev st0 (fun s => stateOf lay (x s)) s) (shockAt eps s)

/-- Given what is known before the period and what follows, the variables of the period are determined in both regimes. -/
structure Spec.ControlsDetermined (lay : Layout tol (yaml D Z0 Z1) H z p) : Prop where
  slack : ∀ v : p → K, MU lay *ᵥ Sum.elim (0 : z ⊕ ε → K) v = 0 → v = 0
  binding : ∀ v : p → K, MR lay *ᵥ Sum.elim (0 : z ⊕ ε → K) v = 0 → v = 0

/-! ## Paths of the reduced system and of the declared variables -/

/-- the linear solution, iterated -/
def linQ (lam : Matrix (z ⊕ ε) (z ⊕ ε) K) (q0 : z ⊕ ε → K) : Nat → z ⊕ ε → K
  | 0 => q0
  | s + 1 => lam *ᵥ linQ lam q0 s

theorem linear_reduced (ho : OracleOK lay orc) (hk : KleinOK (sysOf lay orc) omg lam) (q0 : z ⊕ ε → K) :
    ReducedPath lay 0 0 (linQ lam q0) (fun s => omg *ᵥ linQ lam q0 s) := by
  refine ⟨fun s _ => (sysOf_slack ho _ _).1 (hk (linQ lam q0 s)), fun s hs => ?_⟩
  unfold BindsAt at hs
  omega

theorem reduced_of_pathOf (ho : OracleOK lay orc) (hk : KleinOK (sysOf lay orc) omg lam) {l k : Nat} {Q : Nat → z ⊕ ε → K}
    {P : Nat → p → K} (h : PathOf (sysOf lay orc) omg lam l k Q P) : ReducedPath lay l k Q P := by
  refine ⟨fun s hs => ?_, fun s hs => (sysOf_binding ho _ _).1 (h.bind s hs.1 hs.2)⟩
  by_cases hl : s < l
  · exact (sysOf_slack ho _ _).1 (h.slack s hl)
  · have hs' : l + k ≤ s := by unfold BindsAt at hs; omega
    refine (sysOf_slack ho _ _).1 ?_
    rw [(h.linear (s+1) (by omega)).1, (h.linear s hs').2, (h.linear s hs').1]
    exact hk (Q s)

section
variable (ht : NoTiny tol (yaml D Z0 Z1)) (hE : Fintype.card E + 1 = Fintype.card ν) (hf : Spec.LagsNotExpected D)
  (hself : D.rb D.cvar ≠ 1)
include ht hE hf

theorem qOf_declQP {l k : Nat} {Q : Nat → z ⊕ ε → K} {P : Nat → p → K} (h : ReducedPath lay l k Q P) {st0 : p ⊕ z → K}
    {eps : ε → K} (h0 : Q 0 = q0Of st0 eps) (s : Nat) : qOf lay st0 eps (declQP lay Q P) s = Q s := by
  have hf' := noLagFwd_of_not_expected (Z0 := Z0) (Z1 := Z1) hf
  cases s with
  | zero => exact h0.symm
  | succ s =>
    funext j
    rcases j with i | e
    · show stateOf lay (declQP lay Q P s) (.inr i) = _
      rw [h.state ht hE hf' s]; rfl
    · exact (h.shocks ht hE hf' s e).symm

theorem pOf_declQP {l k : Nat} {Q : Nat → z ⊕ ε → K} {P : Nat → p → K} (h : ReducedPath lay l k Q P) (s : Nat) :
    pOf lay (declQP lay Q P) s = P s := by
  funext j
  show stateOf lay (declQP lay Q P s) (.inl j) = _
  rw [h.state ht hE (noLagFwd_of_not_expected hf) s]; rfl

theorem joins_of_lin (ho : OracleOK lay orc) (hk : KleinOK (sysOf lay orc) omg lam) {st0 : p ⊕ z → K} {eps : ε → K}
    {x : Nat → ν → K} {s : Nat}
    (h : x s = Spec.linStep lay omg lam (prev st0 (fun s => stateOf lay (x s)) s) (shockAt eps s)) :
    pOf lay x s = omg *ᵥ qOf lay st0 eps x s ∧ qOf lay st0 eps x (s+1) = lam *ᵥ qOf lay st0 eps x s := by
  have hf' := noLagFwd_of_not_expected (Z0 := Z0) (Z1 := Z1) hf
  have hl := linear_reduced ho hk (qOf lay st0 eps x s)
  have e : stateOf lay (x s) = fullState (omg *ᵥ qOf lay st0 eps x s) (lam *ᵥ qOf lay st0 eps x s) := by
    rw [h]
    exact hl.state ht hE hf' 0
  constructor
  · funext j
    exact congrFun e (.inl j)
  · funext j
    rcases j with i | e'
    · exact congrFun e (.inr i)
    · exact (hl.shocks ht hE hf' 0 e').symm

include hself

theorem pathOf_of_solution (ho : OracleOK lay orc) (hk : KleinOK (sysOf lay orc) omg lam) {st0 : p ⊕ z → K} {eps : ε → K}
    {l k : Nat} {x : Nat → ν → K} (h : Spec.SpellSolution lay omg lam st0 eps l k x) :
    PathOf (sysOf lay orc) omg lam l k (qOf lay st0 eps x) (pOf lay x) := by
  have hr := reduced_of_solves ht hE hf hself h.solves
  exact ⟨fun s hs => (sysOf_slack ho _ _).2 (hr.slack s (by unfold BindsAt; omega)),
    fun s h1 h2 => (sysOf_binding ho _ _).2 (hr.bind s ⟨h1, h2⟩),
    fun s hs => joins_of_lin ht hE hf ho hk (h.joins s hs)⟩

theorem solution_of_pathOf (ho : OracleOK lay orc) (hk : KleinOK (sysOf lay orc) omg lam) {st0 : p ⊕ z → K} {eps : ε → K}
    {l k : Nat} {Q : Nat → z ⊕ ε → K} {P : Nat → p → K} (h : PathOf (sysOf lay orc) omg lam l k Q P) (h0 : Q 0 = q0Of st0 eps) :
    Spec.SpellSolution lay omg lam st0 eps l k (declQP lay Q P) := by
  have hr := reduced_of_pathOf ho hk h
  constructor
  · have := solves_of_reduced hr ht hE hf hself (st0 := st0) (fun i => by rw [h0]; rfl)
    rw [h0] at this
    exact this
  · intro s hs
    have e := qOf_declQP ht hE hf hr h0 s
    funext v
    show lay.val (fullState (P s) (Q (s+1))) (.inl v) =
      lay.val (fullState (omg *ᵥ qOf lay st0 eps (declQP lay Q P) s) (lam *ᵥ qOf lay st0 eps (declQP lay Q P) s)) (.inl v)
    rw [e, (h.linear s hs).1, (h.linear s hs).2]

/-- From every start there is exactly one path of the reduced system if and only if there is exactly one of the declared
variables. -/
theorem oneOf_iff (ho : OracleOK lay orc) (hk : KleinOK (sysOf lay orc) omg lam) (l k : Nat) :
    OneOf (sysOf lay orc) omg lam l k ↔ ∀ st0 eps, ∃! x, Spec.SpellSolution lay omg lam st0 eps l k x := by
  constructor
  · intro h st0 eps
    obtain ⟨Q, P, hP, h0⟩ := h.some (q0Of st0 eps)
    refine ⟨declQP lay Q P, solution_of_pathOf ht hE hf hself ho hk hP h0, fun y hy => ?_⟩
    have hy' := pathOf_of_solution ht hE hf hself ho hk hy
    obtain ⟨e1, e2⟩ := h.unique _ _ _ _ hy' hP h0.symm
    have hr := reduced_of_pathOf ho hk hP
    funext s
    have e3 := fullState_of lay st0 eps y s
    rw [e1, e2] at e3
    have e4 := hr.state ht hE (noLagFwd_of_not_expected hf) s
    unfold xQP at e4
    rw [e3] at e4
    rw [← lagVal_stateOf lay hE (y s), ← e4, lagVal_stateOf lay hE]
  · intro h
    constructor
    · intro q0
      obtain ⟨x, hx, -⟩ := h (Sum.elim (0 : p → K) (fun i => q0 (.inl i))) (fun e => q0 (.inr e))
      refine ⟨_, _, pathOf_of_solution ht hE hf hself ho hk hx, ?_⟩
      funext j
      rcases j with i | e <;> rfl
    · intro Q P Q' P' h1 h2 h12
      have e0 : Q 0 = q0Of (Sum.elim (0 : p → K) (fun i => Q 0 (.inl i))) (fun e => Q 0 (.inr e)) := by
        funext j
        rcases j with i | e <;> rfl
      have s1 := solution_of_pathOf ht hE hf hself ho hk h1 e0
      have s2 := solution_of_pathOf ht hE hf hself ho hk h2 (h12.symm.trans e0)
      have e := (h _ _).unique s1 s2
      have r1 := reduced_of_pathOf ho hk h1
      have r2 := reduced_of_pathOf ho hk h2
      constructor
      · funext s
        rw [← qOf_declQP ht hE hf r1 e0 s, ← qOf_declQP ht hE hf r2 (h12.symm.trans e0) s, e]
      · funext s
        rw [← pOf_declQP ht hE hf r1 s, ← pOf_declQP ht hE hf r2 s, e]

end

theorem det_iff_of {q p' K' : Type} [Fintype q] [Fintype p'] [DecidableEq q] [DecidableEq p'] [Field K'] [DecidableEq K'] {T : Matrix (q ⊕ p') (q ⊕ p') K'}
    (h12 : T.toBlocks₁₂ = 0) : T.toBlocks₂₂.det ≠ 0 ↔ ∀ v : p' → K', T *ᵥ Sum.elim (0 : q → K') v = 0 → v = 0 := by
  have e : ∀ v : p' → K', T *ᵥ Sum.elim (0 : q → K') v = Sum.elim (0 : q → K') (T.toBlocks₂₂ *ᵥ v) := by
    intro v
    rw [mulVec_elim, h12]
    simp
  constructor
  · intro h v hv
    by_contra hv0
    refine h ((exists_mulVec_eq_zero_iff (M := T.toBlocks₂₂)).1 ⟨v, hv0, ?_⟩)
    rw [e v] at hv
    funext j
    exact congrFun hv (.inr j)
  · intro h hd
    obtain ⟨v, hv0, hv⟩ := (exists_mulVec_eq_zero_iff (M := T.toBlocks₂₂)).2 hd
    refine hv0 (h v ?_)
    rw [e v, hv]
    funext j
    rcases j with j | j <;> rfl

theorem controls_iff (ho : OracleOK lay orc) : Spec.ControlsDetermined lay ↔
    (sysOf lay orc).T.toBlocks₂₂.det ≠ 0 ∧ (sysOf lay orc).W.toBlocks₂₂.det ≠ 0 := by
  have hT := sysOf_T12 ho
  rw [det_iff_of hT.1, det_iff_of hT.2]
  have e1 : ∀ v : p → K, (sysOf lay orc).T *ᵥ Sum.elim (0 : z ⊕ ε → K) v = 0 ↔ MU lay *ᵥ Sum.elim (0 : z ⊕ ε → K) v = 0 := by
    intro v
    have := sysOf_slack ho 0 (Sum.elim (0 : z ⊕ ε → K) v)
    rw [mulVec_zero, mulVec_zero] at this
    exact ⟨fun h => (this.1 h.symm).symm, fun h => (this.2 h.symm).symm⟩
  have e2 : ∀ v : p → K, (sysOf lay orc).W *ᵥ Sum.elim (0 : z ⊕ ε → K) v = 0 ↔ MR lay *ᵥ Sum.elim (0 : z ⊕ ε → K) v = 0 := by
    intro v
    have := rq_undo ho.rqR (PR lay) 0 0 (Sum.elim (0 : z ⊕ ε → K) v)
    rw [mulVec_zero, mulVec_zero, mulVec_zero, add_zero, add_zero] at this
    exact ⟨fun h => (this.1 h.symm).symm, fun h => (this.2 h.symm).symm⟩
  exact ⟨fun h => ⟨fun v hv => h.slack v ((e1 v).1 hv), fun v hv => h.binding v ((e2 v).1 hv)⟩,
    fun h => ⟨fun v hv => h.1 v ((e1 v).2 hv), fun v hv => h.2 v ((e2 v).2 hv)⟩⟩

/-! ## Results -/

section
variable (ho : OracleOK lay orc) (ht : NoTiny tol (yaml D Z0 Z1)) (hE : Fintype.card E + 1 = Fintype.card ν)
  (hf : Spec.LagsNotExpected D) (hself : D.rb D.cvar ≠ 1)
  (hs : ∀ l < lMax + 1, (sched l).Perm (List.range (kMax + 1)))
include ho ht hE hf hself hs

/-- **C171**: the model is solved if and only if the linear solver returns a solution, the variables of a period are determined
in both regimes, and under every spell in the tables there is, from every state and for all shocks, exactly one path that
solves the equations and joins the linear solution. -/
theorem C171_solved_iff_general : (∃ mod, genSys lay orc lMax kMax sched = .ok mod) ↔
    ∃ omg lam, orc.klein (sysOf lay orc).S (sysOf lay orc).T = .ok (omg, lam) ∧ Spec.ControlsDetermined lay ∧
      ∀ l ≤ lMax, ∀ k ≤ kMax, ∀ st0 eps, ∃! x, Spec.SpellSolution lay omg lam st0 eps l k x := by
  have hT := sysOf_T12 ho
  unfold genSys
  dsimp only
  cases hk : orc.klein (sysOf lay orc).S (sysOf lay orc).T with
  | error e => simp
  | ok ol =>
    obtain ⟨omg, lam⟩ := ol
    have hK := ho.klein omg lam hk
    have h1 := preprocess_iff (f := ff lay) hT.1 hT.2 hK hs
    dsimp only
    constructor
    · rintro ⟨mod, h⟩
      refine ⟨omg, lam, rfl, ?_⟩
      cases hp : preprocess (sysOf lay orc) (ff lay) omg lam lMax kMax sched with
      | error e => rw [hp] at h; cases h
      | ok t =>
        obtain ⟨d1, d2, d3⟩ := h1.1 ⟨t, hp⟩
        exact ⟨(controls_iff ho).2 ⟨d1, d2⟩, fun l hl k hkk => (oneOf_iff ht hE hf hself ho hK l k).1 (d3 l hl k hkk)⟩
    · rintro ⟨omg', lam', e, h2, h3⟩
      cases e
      obtain ⟨d1, d2⟩ := (controls_iff ho).1 h2
      obtain ⟨t, hp⟩ := h1.2 ⟨d1, d2, fun l hl k hkk => (oneOf_iff ht hE hf hself ho hK l k).2 (h3 l hl k hkk)⟩
      rw [hp]
      exact ⟨_, rfl⟩

/-- **C171**: with at least one slack and one binding period in the tables, the paths are all that matters. -/
theorem C171_solved_iff (hl1 : 1 ≤ lMax) (hk1 : 1 ≤ kMax) : (∃ mod, genSys lay orc lMax kMax sched = .ok mod) ↔
    ∃ omg lam, orc.klein (sysOf lay orc).S (sysOf lay orc).T = .ok (omg, lam) ∧
      ∀ l ≤ lMax, ∀ k ≤ kMax, ∀ st0 eps, ∃! x, Spec.SpellSolution lay omg lam st0 eps l k x := by
  rw [C171_solved_iff_general ho ht hE hf hself hs]
  constructor
  · rintro ⟨omg, lam, hk, -, h⟩
    exact ⟨omg, lam, hk, h⟩
  · rintro ⟨omg, lam, hk, h⟩
    have hK := ho.klein omg lam hk
    have hT := sysOf_T12 ho
    exact ⟨omg, lam, hk, (controls_iff ho).2 (det_of_one hT.1 hT.2
      ((oneOf_iff ht hE hf hself ho hK 1 0).2 (h 1 hl1 0 (by omega)))
      ((oneOf_iff ht hE hf hself ho hK 0 1).2 (h 0 (by omega) 1 hk1))), h⟩

omit ho ht hE hf hself in
/-- **C171**: if it is not solved the exception is that of the linear solver, or `LinAlgError`. -/
theorem C171_otherwise {e : PyErr} (h : genSys lay orc lMax kMax sched = .error e) :
    orc.klein (sysOf lay orc).S (sysOf lay orc).T = .error e ∨
      ((∃ omg lam, orc.klein (sysOf lay orc).S (sysOf lay orc).T = .ok (omg, lam)) ∧ e = .linAlg) := by
  unfold genSys at h
  dsimp only at h
  cases hk : orc.klein (sysOf lay orc).S (sysOf lay orc).T with
  | error e' => rw [hk] at h; cases h; exact .inl rfl
  | ok ol =>
    obtain ⟨omg, lam⟩ := ol
    rw [hk] at h
    dsimp only at h
    rcases preprocess_spec (sysOf lay orc) (ff lay) omg lam lMax kMax sched hs with ⟨_, t, _, h', _⟩ | h'
    · rw [h'] at h; cases h
    · rw [h'] at h; cases h; exact .inr ⟨⟨omg, lam, rfl⟩, rfl⟩

/-- **C171**: a model that is solved is also solved with fewer periods in the tables. -/
theorem C171_fewer {lMax' kMax' : Nat} (hl : lMax' ≤ lMax) (hk : kMax' ≤ kMax)
    (hs' : ∀ l < lMax' + 1, (sched' l).Perm (List.range (kMax' + 1))) (h : ∃ mod, genSys lay orc lMax kMax sched = .ok mod) :
    ∃ mod, genSys lay orc lMax' kMax' sched' = .ok mod := by
  obtain ⟨omg, lam, h1, h2, h3⟩ := (C171_solved_iff_general ho ht hE hf hself hs).1 h
  exact (C171_solved_iff_general ho ht hE hf hself hs').2 ⟨omg, lam, h1, h2, fun l hl' k hk' => h3 l (by omega) k (by omega)⟩

/-- **C171**: it does not matter which of the possible `RQ` decompositions the external routine returns, nor in which order the
parallel loops run. -/
theorem C171_decomposition_irrelevant (ho' : OracleOK lay orc')
    (hk : orc.klein (sysOf lay orc).S (sysOf lay orc).T = orc'.klein (sysOf lay orc').S (sysOf lay orc').T)
    (hs' : ∀ l < lMax + 1, (sched' l).Perm (List.range (kMax + 1))) :
    (∃ mod, genSys lay orc lMax kMax sched = .ok mod) ↔ ∃ mod, genSys lay orc' lMax kMax sched' = .ok mod := by
  rw [C171_solved_iff_general ho ht hE hf hself hs, C171_solved_iff_general ho' ht hE hf hself hs', hk]

end

/-! ## The contracts can be fulfilled -/

/-- **C171**: over the reals, for every model and every pair `(omg, lam)` of matrices that solves its linear (unconstrained)
system there are external routines that fulfil their contracts and return this pair. -/
theorem C171_contract_satisfiable {tol : ℝ} {m : Input E ν ε o ℝ} [DecidablePred (inall tol m)] (lay : Layout tol m H z p)
    (omg : Matrix p (z ⊕ ε) ℝ) (lam : Matrix (z ⊕ ε) (z ⊕ ε) ℝ)
    (hlin : ∀ q0, PU lay *ᵥ Sum.elim (lam *ᵥ q0) (omg *ᵥ (lam *ᵥ q0)) = MU lay *ᵥ Sum.elim q0 (omg *ᵥ q0)) :
    ∃ orc : Oracle (Rows E H ε) (z ⊕ ε) p ℝ, OracleOK lay orc ∧
      orc.klein (sysOf lay orc).S (sysOf lay orc).T = .ok (omg, lam) := by
  have hc : Fintype.card (z ⊕ ε) + Fintype.card p = Fintype.card (Rows E H ε) := by
    rw [Fintype.card_sum]; exact lay.square
  let orc : Oracle (Rows E H ε) (z ⊕ ε) p ℝ :=
    { rq := fun A => (rq_exists A hc).choose, klein := fun _ _ => .ok (omg, lam) }
  have hU : RQSpec (MU lay)ᵀ (orc.rq (MU lay)ᵀ).1 (orc.rq (MU lay)ᵀ).2 := (rq_exists (MU lay)ᵀ hc).choose_spec
  refine ⟨orc, ⟨hU, (rq_exists (MR lay)ᵀ hc).choose_spec, fun omg' lam' h => ?_⟩, rfl⟩
  cases h
  intro q0
  have := rq_undo hU (PU lay) 0 (Sum.elim (lam *ᵥ q0) (omg *ᵥ (lam *ᵥ q0))) (Sum.elim q0 (omg *ᵥ q0))
  rw [mulVec_zero, add_zero, add_zero] at this
  exact this.2 (hlin q0)

/-! ## Examples -/

/-- **C171**: the hypotheses hold for a concrete model, and it is solved, so each of its spells determines one path. -/
theorem C171_example (b : Rat) (l k : Nat) (st0 : Fin 1 ⊕ Fin 1 → Rat) (eps : Fin 1 → Rat) :
    ∃! x, Spec.SpellSolution (Ex1.layB b) Ex1.omg Ex1.lam st0 eps l k x := by
  obtain ⟨mod, h⟩ := Ex1.succeeds (b := b) l k (Ex1.serial_perm l k)
  obtain ⟨omg, lam, e, -, h2⟩ := (C171_solved_iff_general Ex1.oracleOK Ex1.noTiny rfl (Spec.LagsNotExpected.of_rc rfl)
    (by norm_num [Ex1.declB]) (Ex1.serial_perm l k)).1 ⟨mod, h.gen⟩
  cases e
  exact h2 l (le_refl _) k (le_refl _) st0 eps

/-- **C171**: also for linear use (`k_max = 0`) the binding regime has to determine the variables: a model with exactly one
path on which the constraint is slack, for any number of periods, is not solved if a variable is undetermined while the
constraint binds. -/
theorem C171_linear_use_fails (b : Rat) :
    OracleOK (Ex13.layB b) Ex13.orc ∧
    (∀ l st0 eps, ∃! x, Spec.SpellSolution (Ex13.layB b) Ex13.omg Ex13.lam st0 eps l 0 x) ∧
    ∀ lMax kMax (sched : Nat → List Nat), (∀ l < lMax + 1, (sched l).Perm (List.range (kMax + 1))) →
      genSys (Ex13.layB b) Ex13.orc lMax kMax sched = .error .linAlg := by
  have ho := Ex13.oracleOK (b := b)
  have hf : Spec.LagsNotExpected (Ex13.declB b) := Spec.LagsNotExpected.of_rc rfl
  have hself : (Ex13.declB b).rb (Ex13.declB b).cvar ≠ 1 := by norm_num [Ex13.declB]
  have hK := ho.klein _ _ (show Ex13.orc.klein _ _ = .ok (Ex13.omg, Ex13.lam) from rfl)
  have hW : (sysOf (Ex13.layB b) Ex13.orc).W.toBlocks₂₂.det = 0 := by
    rw [Ex13.sys_W, Matrix.det_fin_one]
    rfl
  refine ⟨ho, fun l => (oneOf_iff Ex13.noTiny rfl hf hself ho hK l 0).1 (oneOf_slack (sysOf_T12 ho).1 hK ?_ ?_ l), ?_⟩
  · rw [Ex13.sys_T, Matrix.det_fin_one]
    norm_num [toBlocks₂₂, Ex13.Tm]
  · rw [Ex13.sys_S]
    intro hd
    obtain ⟨v, hv0, hv⟩ := (exists_mulVec_eq_zero_iff (M := Ex13.Sm.toBlocks₁₁ + Ex13.Sm.toBlocks₁₂ * Ex13.omg)).2 hd
    have h1 := congrFun hv (.inl 0)
    have h2 := congrFun hv (.inr 0)
    simp [mulVec, dotProduct, Fintype.sum_sum_type, Matrix.mul_apply, toBlocks₁₁, toBlocks₁₂, Ex13.Sm, Ex13.omg] at h1 h2
    apply hv0
    funext i
    rcases i with i | i <;> rw [Subsingleton.elim i 0]
    · rw [h1] at h2
      simp only [Pi.zero_apply]
      linarith
    · exact h1
  · intro lMax kMax sched hs
    cases h : genSys (Ex13.layB b) Ex13.orc lMax kMax sched with
    | ok mod =>
      obtain ⟨omg, lam, -, h1, -⟩ := (C171_solved_iff_general ho Ex13.noTiny rfl hf hself hs).1 ⟨mod, h⟩
      exact absurd hW ((controls_iff ho).1 h1).2
    | error e =>
      rcases C171_otherwise hs h with h1 | ⟨-, rfl⟩
      · cases h1
      · rfl

end Pydsge
