import Verif.Props.Satellite
import Verif.Props.Convex
import Verif.Props.Gfevd

/-!
# C146: the level of the bound
-/

set_option autoImplicit false
set_option linter.unusedSectionVars false
set_option linter.unusedSimpArgs false

namespace Pydsge

open Matrix Pydsge.Engine Pydsge.Spec Pydsge.Tools Pydsge.GenSys

variable {E ν ε o K : Type} [Fintype E] [Fintype ν] [Fintype ε] [Fintype o]
  [DecidableEq E] [DecidableEq ν] [DecidableEq ε] [Field K] [LinearOrder K] [IsStrictOrderedRing K]
variable {H z p : Type} [DecidableEq H] [Fintype H] [Fintype z] [Fintype p] [DecidableEq z] [DecidableEq p]
variable {o' : Type} [Fintype o']
  {H' z' p' : Type} [DecidableEq H'] [Fintype H'] [Fintype z'] [Fintype p'] [DecidableEq z'] [DecidableEq p']

/-- The same declarations with another bound. -/
def Spec.Declared.withBound (D : Declared E ν ε K) (b : K) : Declared E ν ε K := { D with xbar := b }

/-- Without binding periods the bound does not matter. -/
theorem solves_withBound {D : Declared E ν ε K} {b : K} {xlag : ν → K} {eps : ε → K} {x : Nat → ν → K} {l : Nat}
    (h : SolvesUnderSpell (D.withBound b) xlag eps x l 0) : SolvesUnderSpell D xlag eps x l 0 :=
  ⟨h.eqs, h.slack, fun s hs => by
    have : l ≤ s ∧ s < l + 0 := hs
    omega⟩

section
variable {D : Declared E ν ε K} {Z0 : Matrix o ν K} {Z1 : o → K} {tol : K} [DecidablePred (inall tol (yaml D Z0 Z1))]
  {lay : Layout tol (yaml D Z0 Z1) H z p}
  {orc : Oracle (Rows E H ε) (z ⊕ ε) p K} {lMax kMax : Nat} {sched : Nat → List Nat} {mod : Model z ε p o K}
variable {b : K} {Z0' : Matrix o' ν K} {Z1' : o' → K} {tol' : K} [DecidablePred (inall tol' (yaml (D.withBound b) Z0' Z1'))]
  {lay' : Layout tol' (yaml (D.withBound b) Z0' Z1') H' z' p'}
  {orc' : Oracle (Rows E H' ε) (z' ⊕ ε) p' K} {kMax' : Nat} {sched' : Nat → List Nat} {mod' : Model z' ε p' o' K}

/-- The values of the constraint along the unconstrained path do not depend on the bound. -/
theorem relax_values {c : Nat → Nat → Cell (z ⊕ ε) p K} {c' : Nat → Nat → Cell (z' ⊕ ε) p' K}
    (h : Succeeded lay orc lMax kMax sched mod) (h' : Succeeded lay' orc' lMax kMax' sched' mod')
    (hm : SolvedModel lay orc lMax kMax mod c) (hm' : SolvedModel lay' orc' lMax kMax' mod' c')
    (hlin : Spec.SameLinearCore id id lay mod lay' mod') (hlag : Spec.LagsNotExpected D) (hself : D.rb D.cvar ≠ 1) {st : p ⊕ z → K} {st' : p' ⊕ z' → K}
    (hst : lagVal lay st = lagVal lay' st') (eps : ε → K) {j : Nat} (hj : j < lMax + 1) :
    valuesAt lay c st eps 2 j 0 = valuesAt lay' c' st' eps 2 j 0 := by
  have hlag' : Spec.LagsNotExpected (D.withBound b) := hlag
  have hself' : (D.withBound b).rb (D.withBound b).cvar ≠ 1 := hself
  unfold valuesAt
  have e : ∀ s v, lay.val (xPath c j 0 (q0Of st eps) s) (.inl v) = lay'.val (xPath c' j 0 (q0Of st' eps) s) (.inl v) := fun s v =>
    core_paths_of (f := id) (g := id) h h' hlin hlag hlag' hself rfl
      (fun _ _ _ hx => solves_withBound (D := Spec.asSolved D) (b := b) hx) (Nat.lt_succ_iff.1 hj) (Nat.zero_le _)
      (Nat.lt_succ_iff.1 hj) (Nat.zero_le _) hst
      ((expectedPath_iff hm h.orc h.noTiny h.square h.states (noLagFwd_of_not_expected hlag) (Nat.lt_succ_iff.1 hj) (Nat.zero_le _) st eps _).2 fun _ => rfl)
      ((expectedPath_iff hm' h'.orc h'.noTiny h'.square h'.states (noLagFwd_of_not_expected hlag') (Nat.lt_succ_iff.1 hj) (Nat.zero_le _) st' eps _).2 fun _ => rfl) s v
  rw [pathValue_at h hm hlag hself (Nat.lt_succ_iff.1 hj) (Nat.zero_le _), pathValue_at h' hm' hlag' hself' (Nat.lt_succ_iff.1 hj) (Nat.zero_le _), hst]
  simp only [e]
  rfl

/-- Linear transitions agree, in their values and in the lags they hand over. -/
theorem relax_linear (h : Succeeded lay orc lMax kMax sched mod) (h' : Succeeded lay' orc' lMax kMax' sched' mod')
    (hlin : Spec.SameLinearCore id id lay mod lay' mod') (hlag : Spec.LagsNotExpected D) (hself : D.rb D.cvar ≠ 1) {st : p ⊕ z → K} {st' : p' ⊕ z' → K}
    (hst : lagVal lay st = lagVal lay' st') (eps : ε → K) :
    ∃ r r', tFunc mod st eps .none true = .ok r ∧ tFunc mod' st' eps .none true = .ok r' ∧ (r.l, r.k, r.flag) = (0, 0, 0) ∧ (r'.l, r'.k, r'.flag) = (0, 0, 0) ∧
      (∀ v, lay.val r.state (.inl v) = lay'.val r'.state (.inl v)) ∧ lagVal lay r.state = lagVal lay' r'.state := by
  have hlag' : Spec.LagsNotExpected (D.withBound b) := hlag
  obtain ⟨c, hm⟩ := genSys_ok h.perm h.gen
  obtain ⟨c', hm'⟩ := genSys_ok h'.perm h'.gen
  have h1 := tFunc_linear_eq h st eps
  have h2 := tFunc_linear_eq h' st' eps
  have h1' := h1
  have h2' := h2
  rw [tFunc_linear] at h1' h2'
  have hv := hlin st st' eps _ _ hst h1' h2'
  refine ⟨_, _, h1, h2, rfl, rfl, hv, ?_⟩
  have hX := (expectedPath_iff hm h.orc h.noTiny h.square h.states (noLagFwd_of_not_expected hlag) (Nat.zero_le _) (Nat.zero_le _) st eps _).2 fun _ => rfl
  have hX' := (expectedPath_iff hm' h'.orc h'.noTiny h'.square h'.states (noLagFwd_of_not_expected hlag') (Nat.zero_le _) (Nat.zero_le _) st' eps _).2 fun _ => rfl
  have e1 := expected_lagVal h (noLagFwd_of_not_expected hlag) (Nat.zero_le _) (Nat.zero_le _) hX 1
  have e2 := expected_lagVal h' (noLagFwd_of_not_expected hlag') (Nat.zero_le _) (Nat.zero_le _) hX' 1
  obtain ⟨r1, a1, a2⟩ := hX 0
  obtain ⟨r2, b1, b2⟩ := hX' 0
  have k1 : tFunc mod st eps (.pair 0 0) false = .ok r1 := a1
  have k2 : tFunc mod' st' eps (.pair 0 0) false = .ok r2 := b1
  rw [h1'] at k1
  rw [h2'] at k2
  cases k1
  cases k2
  simp only at a2 b2
  rw [← a2, ← b2]
  refine e1.trans (Eq.trans ?_ e2.symm)
  funext v
  show lay.val _ (.inl v) = lay'.val _ (.inl v)
  rw [a2, b2]
  exact hv v

/-- **C146**: a lower bound does not bind where a higher one does not, and there the level of the bound does not matter: the transition leads to the same values. -/
theorem C146_relaxed (h : Succeeded lay orc lMax kMax sched mod) (h' : Succeeded lay' orc' lMax kMax' sched' mod') (hk : 0 < kMax)
    (hlin : Spec.SameLinearCore id id lay mod lay' mod') (hlag : Spec.LagsNotExpected D) (hself : D.rb D.cvar ≠ 1) (hb : b ≤ D.xbar) {st : p ⊕ z → K} {st' : p' ⊕ z' → K}
    (hst : lagVal lay st = lagVal lay' st') {eps : ε → K} {r : Step z p K} (hr : tFunc mod st eps .none false = .ok r) (h0 : r.k = 0) :
    ∃ r', tFunc mod' st' eps .none false = .ok r' ∧ r'.l = 0 ∧ r'.k = 0 ∧ r'.flag = 0 ∧ (∀ v, lay.val r.state (.inl v) = lay'.val r'.state (.inl v)) ∧
      lagVal lay r.state = lagVal lay' r'.state := by
  obtain ⟨c, hm, hc⟩ := search_cases h hk
  obtain ⟨c', hm'⟩ := genSys_ok h'.perm h'.gen
  have n1 := slack_neverBinds (hc st eps) ⟨r, hr, h0⟩
  have n2 : NeverBinds (valuesAt lay' c' st' eps) b (lMax + 1) := fun j hj => by
    rw [← relax_values h h' hm hm' hlin hlag hself hst eps hj]
    exact lt_of_le_of_lt hb (n1 j hj)
  obtain ⟨s, s', g1, g2, g3, g4, g5, g6⟩ := relax_linear h h' hlin hlag hself hst eps
  rw [find_of_neverBinds h hm n1, g1] at hr
  cases hr
  refine ⟨s', by rw [find_of_neverBinds h' hm' n2, g2], ?_, ?_, ?_, g5, g6⟩
  · exact congrArg Prod.fst g4
  · exact congrArg (fun x => x.2.1) g4
  · exact congrArg (fun x => x.2.2) g4

/-- **C146**, the other way: if the lower bound binds, so does the higher one. -/
theorem C146_tightened (h : Succeeded lay orc lMax kMax sched mod) (h' : Succeeded lay' orc' lMax kMax' sched' mod') (hk : 0 < kMax)
    (hlin : Spec.SameLinearCore id id lay mod lay' mod') (hlag : Spec.LagsNotExpected D) (hself : D.rb D.cvar ≠ 1) (hb : b ≤ D.xbar) {st : p ⊕ z → K} {st' : p' ⊕ z' → K}
    (hst : lagVal lay st = lagVal lay' st') {eps : ε → K} {r : Step z p K} {r' : Step z' p' K} (hr : tFunc mod st eps .none false = .ok r)
    (hr' : tFunc mod' st' eps .none false = .ok r') (h0 : r'.k ≠ 0) : r.k ≠ 0 := by
  intro hc
  obtain ⟨s', g1, -, g2, -⟩ := C146_relaxed h h' hk hlin hlag hself hb hst hr hc
  rw [hr'] at g1
  cases g1
  exact h0 g2

/-- **C146** for simulations: if the constraint never binds in a simulation, it does not with a lower bound, and the values are the same. -/
theorem C146_simulation (h : Succeeded lay orc lMax kMax sched mod) (h' : Succeeded lay' orc' lMax kMax' sched' mod') (hk : 0 < kMax)
    (hlin : Spec.SameLinearCore id id lay mod lay' mod') (hlag : Spec.LagsNotExpected D) (hself : D.rb D.cvar ≠ 1) (hb : b ≤ D.xbar) (es : List (ε → K))
    {st : p ⊕ z → K} {st' : p' ⊕ z' → K} (hst : lagVal lay st = lagVal lay' st') {res : SimRes z p K} (hr : simLoop mod false st es = .ok res)
    (h0 : ∀ lk ∈ res.LK, lk.2 = 0) :
    ∃ res', simLoop mod' false st' es = .ok res' ∧ (∀ lk ∈ res'.LK, lk = (0, 0)) ∧ res'.flag = 0 ∧
      res.X.tail.map (fun x v => lay.val x (.inl v)) = res'.X.tail.map (fun x v => lay'.val x (.inl v)) := by
  suffices ∃ res', simLoop mod' false st' es = .ok res' ∧ (∀ lk ∈ res'.LK, lk = (0, 0)) ∧ res'.flag = 0 ∧ ∃ X X', res.X = st :: X ∧ res'.X = st' :: X' ∧
      X.map (fun x v => lay.val x (.inl v)) = X'.map (fun x v => lay'.val x (.inl v)) by
    obtain ⟨res', h1, h2, h3, X, X', h4, h5, h6⟩ := this
    exact ⟨res', h1, h2, h3, by rw [h4, h5]; exact h6⟩
  induction es generalizing st st' res with
  | nil =>
    simp only [simLoop] at hr
    cases hr
    exact ⟨_, rfl, by simp, rfl, [], [], rfl, rfl, rfl⟩
  | cons e es ih =>
    simp only [simLoop] at hr
    cases ht : tFunc mod st e .none false with
    | error err => rw [ht] at hr; cases hr
    | ok r =>
      rw [ht] at hr
      simp only at hr
      cases hs : simLoop mod false r.state es with
      | error err => rw [hs] at hr; cases hr
      | ok rest =>
        rw [hs] at hr
        simp only [Except.ok.injEq] at hr
        subst hr
        obtain ⟨r', g1, g2, g3, g4, g5, g6⟩ := C146_relaxed h h' hk hlin hlag hself hb hst ht (h0 (r.l, r.k) (by simp))
        obtain ⟨res', k1, k2, k3, X, X', k4, k5, k6⟩ := ih g6 hs (fun lk hlk => h0 lk (by simp [hlk]))
        refine ⟨⟨st' :: res'.X, (r'.l, r'.k) :: res'.LK, r'.flag ||| res'.flag⟩, by simp only [simLoop, g1, k1], ?_, by simp [g4, k3], rest.X, res'.X, rfl, rfl, ?_⟩
        · intro lk hlk
          rcases List.mem_cons.1 hlk with rfl | hlk
          · rw [g2, g3]
          · exact k2 lk hlk
        · rw [k4, k5, List.map_cons, List.map_cons, k6]
          congr 1
          funext v
          exact g5 v

end

section Low
variable {D : Declared E ν ε K} {Z0 : Matrix o ν K} {Z1 : o → K} {tol : K} [DecidablePred (inall tol (yaml D Z0 Z1))]
  {lay : Layout tol (yaml D Z0 Z1) H z p}
  {orc : Oracle (Rows E H ε) (z ⊕ ε) p K} {lMax kMax : Nat} {sched : Nat → List Nat} {mod : Model z ε p o K}

theorem exists_below (v : Nat → K) (n : Nat) : ∃ x : K, ∀ j < n, x < v j := by
  induction n with
  | zero => exact ⟨0, by simp⟩
  | succ n ih =>
    obtain ⟨x, hx⟩ := ih
    refine ⟨min x (v n - 1), fun j hj => ?_⟩
    rcases Nat.lt_succ_iff_lt_or_eq.1 hj with h | rfl
    · exact lt_of_le_of_lt (min_le_left _ _) (hx j h)
    · exact lt_of_le_of_lt (min_le_right _ _) (by linarith)

/-- **C146**, no bound at all: for every state and all shocks of a simulation there is a level such that with any bound below it the simulation is the linear one. -/
theorem C146_low_bound (h : Succeeded lay orc lMax kMax sched mod) (hlag : Spec.LagsNotExpected D) (hself : D.rb D.cvar ≠ 1) (es : List (ε → K)) (st : p ⊕ z → K) :
    ∃ low : K, ∀ b ≤ low, ∀ (Z0' : Matrix o' ν K) (Z1' : o' → K) (tol' : K) [DecidablePred (inall tol' (yaml (D.withBound b) Z0' Z1'))]
      (lay' : Layout tol' (yaml (D.withBound b) Z0' Z1') H' z' p') (orc' : Oracle (Rows E H' ε) (z' ⊕ ε) p' K) (kMax' : Nat) (sched' : Nat → List Nat)
      (mod' : Model z' ε p' o' K), Succeeded lay' orc' lMax kMax' sched' mod' → Spec.SameLinearCore id id lay mod lay' mod' →
      ∀ st' : p' ⊕ z' → K, lagVal lay st = lagVal lay' st' → simLoop mod' false st' es = simLoop mod' true st' es := by
  induction es generalizing st with
  | nil => exact ⟨0, fun _ _ _ _ _ _ _ _ _ _ _ _ _ _ _ => rfl⟩
  | cons e es ih =>
    obtain ⟨c, hm⟩ := genSys_ok h.perm h.gen
    obtain ⟨x, hx⟩ := exists_below (fun j => valuesAt lay c st e 2 j 0) (lMax + 1)
    obtain ⟨low, hlow⟩ := ih (Sum.elim (mod.omg *ᵥ q0Of st e) (fun i => (mod.lam *ᵥ q0Of st e) (.inl i)))
    refine ⟨min x low, fun b hb Z0' Z1' tol' _ lay' orc' kMax' sched' mod' h' hlin st' hst => ?_⟩
    obtain ⟨c', hm'⟩ := genSys_ok h'.perm h'.gen
    have n2 : NeverBinds (valuesAt lay' c' st' e) b (lMax + 1) := fun j hj => by
      rw [← relax_values h h' hm hm' hlin hlag hself hst e hj]
      exact lt_of_le_of_lt (hb.trans (min_le_left _ _)) (hx j hj)
    obtain ⟨s, s', g1, g2, -, -, -, g6⟩ := relax_linear h h' hlin hlag hself hst e
    rw [tFunc_linear_eq h] at g1
    cases g1
    simp only [simLoop, find_of_neverBinds h' hm' n2, g2]
    rw [hlow b (hb.trans (min_le_right _ _)) Z0' Z1' tol' lay' orc' kMax' sched' mod' h' hlin s'.state g6]

end Low

/-! ## Examples -/

theorem ex1_sameLinear {b b' : Rat} {mod mod' : Model (Fin 1) (Fin 1) (Fin 1) (Fin 1) Rat} {lMax kMax lMax' kMax' : Nat} {sched sched' : Nat → List Nat}
    (h : Succeeded (Ex1.layB b) Ex1.orc lMax kMax sched mod) (h' : Succeeded (Ex1.layB b') Ex1.orc lMax' kMax' sched' mod') :
    Spec.SameLinearCore id id (Ex1.layB b) mod (Ex1.layB b') mod' := by
  intro st st' eps r r' hst hr hr' v
  have hz : st (.inr 0) = st' (.inr 0) := by
    have e := congrFun hst 0
    simp only [lagVal, Function.comp, id] at e
    rw [if_neg (Ex1.not_inall _), if_neg (Ex1.not_inall _)] at e
    have e1 : (Ex1.layB b).val st (.inl 0) = st (.inr 0) := (Ex1.layB b).val_z st 0
    have e2 : (Ex1.layB b').val st' (.inl 0) = st' (.inr 0) := (Ex1.layB b').val_z st' 0
    rw [← e1, ← e2]
    exact e
  obtain ⟨c, hm⟩ := genSys_ok h.perm h.gen
  obtain ⟨c', hm'⟩ := genSys_ok h'.perm h'.gen
  have k1 := hm.kl
  have k2 := hm'.kl
  simp only [Ex1.orc, Except.ok.injEq, Prod.mk.injEq] at k1 k2
  rw [← tFunc_linear, tFunc_linear_eq h, ← k1.1, ← k1.2] at hr
  rw [← tFunc_linear, tFunc_linear_eq h', ← k2.1, ← k2.2] at hr'
  have hq : q0Of st (eps ∘ id) = q0Of st' eps := by
    funext i
    rcases i with i | i
    · rw [Subsingleton.elim i 0]; exact hz
    · rfl
  rw [hq] at hr
  cases hr
  cases hr'
  rfl

/-- The hypotheses of C146 are met: the first example with the bounds `-1` and `-2`; after a small negative shock the constraint does
not bind, after a large one it does. -/
theorem C146_hypotheses_met : ∃ mod mod', Succeeded (Ex1.layB (-1)) Ex1.orc 3 1 (serial 1) mod ∧ Succeeded (Ex1.layB (-2)) Ex1.orc 3 1 (serial 1) mod' ∧
    Ex1.declB (-2) = (Ex1.declB (-1)).withBound (-2) ∧ Spec.SameLinearCore id id (Ex1.layB (-1)) mod (Ex1.layB (-2)) mod' ∧ Spec.LagsNotExpected (Ex1.declB (-1)) ∧
    (Ex1.declB (-1)).rb (Ex1.declB (-1)).cvar ≠ 1 ∧ lagVal (Ex1.layB (-1)) 0 = lagVal (Ex1.layB (-2)) 0 ∧
    (∃ δ > 0, ∃ r, tFunc mod 0 (fun _ => -δ) .none false = .ok r ∧ r.k = 0) ∧ ∃ r, tFunc mod 0 (fun _ => -9/4) .none false = .ok r ∧ r.k = 1 := by
  obtain ⟨solB, h⟩ := ex1_bounds
  refine ⟨solB (-1), solB (-2), (h _).1, (h _).1, rfl, ex1_sameLinear (h _).1 (h _).1, .of_rc rfl, ?_, ?_, ?_, ?_⟩
  · show (if (1 : Fin 2) = 0 then (1 : Rat) else 0) ≠ 1
    simp
  · funext v
    unfold lagVal
    rw [if_neg (Ex1.not_inall v), if_neg (Ex1.not_inall v)]
    unfold Layout.val
    simp
  · have hx : (Ex1.inpB (-1)).xbar < 0 := by show (-1 : Rat) < 0; norm_num
    obtain ⟨δ, hδ, hd⟩ := C131_small_disturbances_linear (h (-1)).1 hx
    exact ⟨δ, hδ, _, (hd 0 (fun _ => -δ) (fun i => by simp [hδ.le]) (fun i => by simp [abs_of_pos hδ])).trans (tFunc_linear_eq (h _).1 _ _), rfl⟩
  · obtain ⟨r, g1, g2, g3, -⟩ := Ex1.binding_run 3 1 (by omega) (by omega) (h (-1)).1
    exact ⟨r, g1, g3⟩

end Pydsge
