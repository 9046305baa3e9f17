import Verif.Props.Solvable
import Verif.Props.FoundLag

/-!
# Paths with announced disturbances of the constraint equation

`Disturbed`: paths of the reduced slack system in which the row of the constraint is disturbed by `w s` in period `s`, and which follow the linear
solution from period `n` on.  They exist for all `w` and all starts, and are paths of the declared variables.
-/

set_option autoImplicit false
set_option linter.unusedSectionVars false
set_option linter.unusedSimpArgs false

namespace Pydsge.Engine

open Matrix

variable {q p K : Type} [Fintype q] [Fintype p] [DecidableEq q] [DecidableEq p] [Field K] [DecidableEq K]

/-- Announced disturbances `f` of the slack system, which end before period `n`, shift the controls by a fixed vector. -/
theorem disturbed_exists {M : Sys q p K} {omg : Matrix p q K} {lam : Matrix q q K} (hT : M.T.toBlocks₁₂ = 0) (hk : KleinOK M omg lam)
    (h1 : M.T.toBlocks₂₂.det ≠ 0) (h2 : (M.S.toBlocks₁₁ + M.S.toBlocks₁₂ * omg).det ≠ 0) (n : Nat) :
    ∀ f : Nat → q ⊕ p → K, (∀ s, n ≤ s → f s = 0) → ∃ a : p → K, ∀ q0, ∃ (Q : Nat → q → K) (P : Nat → p → K),
      (∀ s, M.S *ᵥ Sum.elim (Q (s+1)) (P (s+1)) = M.T *ᵥ Sum.elim (Q s) (P s) + f s) ∧
      (∀ s, n ≤ s → P s = omg *ᵥ Q s ∧ Q (s+1) = lam *ᵥ Q s) ∧ Q 0 = q0 ∧ P 0 = omg *ᵥ q0 + a := by
  induction n with
  | zero =>
    intro f hf
    refine ⟨0, fun q0 => ⟨fun s => (fun v => lam *ᵥ v)^[s] q0, fun s => omg *ᵥ ((fun v => lam *ᵥ v)^[s] q0), fun s => ?_, fun s _ => ⟨rfl, ?_⟩, rfl, ?_⟩⟩
    · rw [hf s (Nat.zero_le s), add_zero]
      dsimp only
      rw [Function.iterate_succ_apply']
      exact hk _
    · exact Function.iterate_succ_apply' _ _ _
    · simp
  | succ n ih =>
    intro f hf
    obtain ⟨a', ha'⟩ := ih (fun s => f (s+1)) (fun s hs => hf (s+1) (by omega))
    have solve : ∀ {n : Type} [Fintype n] [DecidableEq n] {A : Matrix n n K}, A.det ≠ 0 → ∀ b, ∃ v, A *ᵥ v = b := by
      intro n _ _ A hA b
      refine ⟨A⁻¹ *ᵥ b, ?_⟩
      rw [mulVec_mulVec, mul_nonsing_inv _ (isUnit_iff_ne_zero.2 hA), one_mulVec]
    obtain ⟨v, hv⟩ := solve h2 ((fun i => f 0 (.inl i)) - M.S.toBlocks₁₂ *ᵥ a')
    obtain ⟨u, hu⟩ := solve h1 (M.S.toBlocks₂₁ *ᵥ v + M.S.toBlocks₂₂ *ᵥ (omg *ᵥ v + a') - fun i => f 0 (.inr i))
    refine ⟨u, fun q0 => ?_⟩
    obtain ⟨Q, P, g1, g2, g3, g4⟩ := ha' (lam *ᵥ q0 + v)
    refine ⟨consP q0 Q, consP (omg *ᵥ q0 + u) P, fun s => ?_, fun s hs => ?_, rfl, rfl⟩
    · cases s with
      | succ s => exact g1 s
      | zero =>
        show M.S *ᵥ Sum.elim (Q 0) (P 0) = M.T *ᵥ Sum.elim q0 (omg *ᵥ q0 + u) + f 0
        have e0 := hk q0
        have s1 : Sum.elim (Q 0) (P 0) = Sum.elim (lam *ᵥ q0) (omg *ᵥ (lam *ᵥ q0)) + Sum.elim v (omg *ᵥ v + a') := by
          rw [g4, g3, mulVec_add]
          funext i; cases i <;> simp; ring
        have s2 : Sum.elim q0 (omg *ᵥ q0 + u) = Sum.elim q0 (omg *ᵥ q0) + Sum.elim (0 : q → K) u := by
          funext i; cases i <;> simp
        have s3 : f 0 = Sum.elim (fun i => f 0 (.inl i)) (fun i => f 0 (.inr i)) := by
          funext i; cases i <;> rfl
        rw [s1, s2, mulVec_add, mulVec_add, e0, add_assoc]
        congr 1
        rw [s3, mulVec_elim, mulVec_elim, hT]
        rw [add_mulVec, ← mulVec_mulVec] at hv
        have e1 : M.S.toBlocks₁₁ *ᵥ v + M.S.toBlocks₁₂ *ᵥ (omg *ᵥ v + a') = fun i => f 0 (.inl i) := by
          rw [mulVec_add, ← add_assoc, hv]; abel
        have e2 : M.S.toBlocks₂₁ *ᵥ v + M.S.toBlocks₂₂ *ᵥ (omg *ᵥ v + a') = M.T.toBlocks₂₂ *ᵥ u + fun i => f 0 (.inr i) := by
          rw [hu]; abel
        rw [e1, e2]
        funext i; cases i <;> simp
    · cases s with
      | zero => omega
      | succ s => exact g2 s (by omega)

end Pydsge.Engine

namespace Pydsge

open Matrix Pydsge.Engine Pydsge.Spec Pydsge.Tools Pydsge.GenSys

variable {E ν ε o K : Type} [Fintype E] [Fintype ν] [Fintype ε] [Fintype o]
  [DecidableEq E] [DecidableEq ν] [DecidableEq ε] [Field K] [LinearOrder K] [IsStrictOrderedRing K]
variable {H z p : Type} [DecidableEq H] [Fintype H] [Fintype z] [Fintype p] [DecidableEq z] [DecidableEq p]

section
variable {tol : K} {m : Input E ν ε o K} [DecidablePred (inall tol m)]

/-- the row of the constraint -/
def distRow : Rows E H ε → K
  | .inl _ => 0
  | .inr _ => 1

/-- A path of the slack system, with the constraint disturbed by `w`. -/
structure Disturbed (lay : Layout tol m H z p) (omg : Matrix p (z ⊕ ε) K) (lam : Matrix (z ⊕ ε) (z ⊕ ε) K) (n : Nat)
    (Q : Nat → z ⊕ ε → K) (P : Nat → p → K) (w : Nat → K) : Prop where
  row : ∀ s, PU lay *ᵥ Sum.elim (Q (s+1)) (P (s+1)) = MU lay *ᵥ Sum.elim (Q s) (P s) + w s • distRow
  lin : ∀ s, n ≤ s → P s = omg *ᵥ Q s ∧ Q (s+1) = lam *ᵥ Q s

variable {lay : Layout tol m H z p} {omg : Matrix p (z ⊕ ε) K} {lam : Matrix (z ⊕ ε) (z ⊕ ε) K} {n : Nat}
  {Q Q' : Nat → z ⊕ ε → K} {P P' : Nat → p → K} {w w' : Nat → K}

namespace Disturbed

theorem add (h : Disturbed lay omg lam n Q P w) (h' : Disturbed lay omg lam n Q' P' w') :
    Disturbed lay omg lam n (Q + Q') (P + P') (w + w') := by
  have e : ∀ s, Sum.elim ((Q + Q') s) ((P + P') s) = Sum.elim (Q s) (P s) + Sum.elim (Q' s) (P' s) := by
    intro s; funext i; cases i <;> rfl
  refine ⟨fun s => ?_, fun s hs => ?_⟩
  · rw [e, e, mulVec_add, mulVec_add, h.row, h'.row, Pi.add_apply, add_smul]; abel
  · obtain ⟨a, b⟩ := h.lin s hs
    obtain ⟨a', b'⟩ := h'.lin s hs
    simp only [Pi.add_apply, mulVec_add]
    exact ⟨by rw [a, a'], by rw [b, b']⟩

theorem smul (h : Disturbed lay omg lam n Q P w) (c : K) : Disturbed lay omg lam n (c • Q) (c • P) (c • w) := by
  have e : ∀ s, Sum.elim ((c • Q) s) ((c • P) s) = c • Sum.elim (Q s) (P s) := by
    intro s; funext i; cases i <;> rfl
  refine ⟨fun s => ?_, fun s hs => ?_⟩
  · rw [e, e, mulVec_smul, mulVec_smul, h.row, smul_add, Pi.smul_apply, smul_smul, smul_eq_mul]
  · obtain ⟨a, b⟩ := h.lin s hs
    simp only [Pi.smul_apply, mulVec_smul]
    exact ⟨by rw [a], by rw [b]⟩

theorem rows (h : Disturbed lay omg lam n Q P w) (ht : NoTiny tol m) (hE : Fintype.card E + 1 = Fintype.card ν) (hf : NoLagFwd m)
    {st0 : p ⊕ z → K} (h0 : ∀ i, st0 (.inr i) = Q 0 (.inl i)) (s : Nat) (r : Rows E H ε) :
    (∑ y, AAc (H := H) m r y * yVec lay (xQP Q P (s+1)) (fun e => Q (s+1+1) (.inr e)) y) +
      (∑ y, BBU m lay.hyb r y * yVec lay (xQP Q P s) (fun e => Q (s+1) (.inr e)) y) +
      (∑ y, CCU tol m lay.hyb r y * yVec lay (prev st0 (xQP Q P) s) (fun e => Q s (.inr e)) y) + w s * distRow r = 0 := by
  have h2 := congrFun (h.row s) r
  rw [Pi.add_apply, Pi.smul_apply, smul_eq_mul, mulVec_apply_sum, mulVec_apply_sum] at h2
  have h3 := reduced_row lay hE (AAc (H := H) m r) (BBU m lay.hyb r) (CCU tol m lay.hyb r)
    (fun y hy => AAc_zero ht lay hf hy r) (fun y hy => CCU_zero ht lay.hyb hy r)
    (P s) (P (s+1)) (Q s) (Q (s+1)) (Q (s+1+1)) (prev st0 (xQP Q P) s) (prevQP_z h0 s)
  unfold xQP
  unfold xQP at h3
  rw [← h3]
  simp only [PU, MU, neg_mul, Finset.sum_neg_distrib] at h2
  linear_combination -h2

theorem rowsAll (h : Disturbed lay omg lam n Q P w) (ht : NoTiny tol m) (hE : Fintype.card E + 1 = Fintype.card ν) (hf : NoLagFwd m)
    {st0 : p ⊕ z → K} (h0 : ∀ i, st0 (.inr i) = Q 0 (.inl i)) (s : Nat) (r : (E ⊕ H) ⊕ ε) :
    (∑ y, AA1 (H := H) m r y * yVec lay (xQP Q P (s+1)) (fun e => Q (s+1+1) (.inr e)) y) +
      (∑ y, BB1 m lay.hyb r y * yVec lay (xQP Q P s) (fun e => Q (s+1) (.inr e)) y) +
      ∑ y, CC1 tol m lay.hyb r y * yVec lay (prev st0 (xQP Q P) s) (fun e => Q s (.inr e)) y = 0 := by
  have := h.rows ht hE hf h0 s (.inl r)
  simp only [distRow, mul_zero, add_zero] at this
  exact this

theorem shocks (h : Disturbed lay omg lam n Q P w) (ht : NoTiny tol m) (hE : Fintype.card E + 1 = Fintype.card ν) (hf : NoLagFwd m)
    (s : Nat) (e : ε) : Q (s+1) (.inr e) = 0 := by
  have := h.rowsAll ht hE hf (st0 := Sum.elim (fun _ => 0) (fun i => Q 0 (.inl i))) (fun i => rfl) s (.inr e)
  simp only [AA1, CC1, BB1, Fintype.sum_sum_type, zero_mul, Finset.sum_const_zero, zero_add, add_zero, ite_mul, one_mul,
    Finset.sum_ite_eq, Finset.mem_univ, if_true] at this
  exact this

theorem aux (h : Disturbed lay omg lam n Q P w) (ht : NoTiny tol m) (hE : Fintype.card E + 1 = Fintype.card ν) (hf : NoLagFwd m)
    (s : Nat) (a : H) : lay.val (xQP Q P s) (.inr a) = lay.val (xQP Q P s) (.inl (lay.hyb a)) := by
  have := h.rowsAll ht hE hf (st0 := Sum.elim (fun _ => 0) (fun i => Q 0 (.inl i))) (fun i => rfl) s (.inl (.inr a))
  simp only [AA1, CC1, BB1, Fintype.sum_sum_type, zero_mul, Finset.sum_const_zero, zero_add, add_zero, ite_mul, one_mul,
    Finset.sum_ite_eq, Finset.mem_univ, if_true, neg_mul] at this
  simp only [yVec] at this
  linear_combination this

theorem state (h : Disturbed lay omg lam n Q P w) (ht : NoTiny tol m) (hE : Fintype.card E + 1 = Fintype.card ν) (hf : NoLagFwd m)
    (s : Nat) : stateOf lay (declQP lay Q P s) = xQP Q P s := by
  refine val_ext lay fun w => ?_
  rw [val_stateOf lay hE]
  rcases w with v | a
  · rfl
  · exact (h.aux ht hE hf s a).symm

theorem lagged (h : Disturbed lay omg lam n Q P w) (ht : NoTiny tol m) (hE : Fintype.card E + 1 = Fintype.card ν) (hf : NoLagFwd m)
    (st0 : p ⊕ z → K) (s : Nat) : lagVal lay (prev st0 (xQP Q P) s) = prev (lagVal lay st0) (declQP lay Q P) s := by
  cases s with
  | zero => rfl
  | succ s =>
    show lagVal lay (xQP Q P s) = declQP lay Q P s
    rw [← h.state ht hE hf s]
    exact lagVal_stateOf lay hE _

theorem shocksAt (h : Disturbed lay omg lam n Q P w) (ht : NoTiny tol m) (hE : Fintype.card E + 1 = Fintype.card ν) (hf : NoLagFwd m)
    (s : Nat) : (fun e => Q s (.inr e)) = shockAt (fun e => Q 0 (.inr e)) s := by
  cases s with
  | zero => rfl
  | succ s => funext e; exact h.shocks ht hE hf s e

theorem eqs (h : Disturbed lay omg lam n Q P w) (ht : NoTiny tol m) (hE : Fintype.card E + 1 = Fintype.card ν) (hf : NoLagFwd m)
    {st0 : p ⊕ z → K} (h0 : ∀ i, st0 (.inr i) = Q 0 (.inl i)) (s : Nat) :
    m.AA0 *ᵥ declQP lay Q P (s+1) + m.BB0 *ᵥ declQP lay Q P s +
      m.CC0 *ᵥ prev (lagVal lay st0) (declQP lay Q P) s + m.DD0 *ᵥ shockAt (fun e => Q 0 (.inr e)) s = 0 := by
  funext e
  have h1 := h.rowsAll ht hE hf h0 s (.inl (.inl e))
  have h2 := h.shocksAt ht hE hf s
  rw [h2, sum_CC1, h.lagged ht hE hf] at h1
  simp only [AA1, BB1, Fintype.sum_sum_type, zero_mul, Finset.sum_const_zero, add_zero] at h1
  simp only [Pi.add_apply, mulVec, dotProduct, Pi.zero_apply]
  simp only [yVec] at h1
  have e1 : ∀ s v, lay.val (xQP Q P s) (.inl v) = declQP lay Q P s v := fun _ _ => rfl
  simp only [e1] at h1
  linear_combination h1

theorem conValue (h : Disturbed lay omg lam n Q P w) (ht : NoTiny tol m) (hE : Fintype.card E + 1 = Fintype.card ν) (hf : NoLagFwd m)
    {st0 : p ⊕ z → K} (h0 : ∀ i, st0 (.inr i) = Q 0 (.inl i)) (s : Nat) :
    (∑ v, fbN m v * declQP lay Q P s v) +
      (∑ v, fcY (H := H) m (.inl (.inl v)) * lay.val (prev st0 (xQP Q P) s) (.inl v)) +
      (∑ e, fcY (H := H) m (.inr e) * shockAt (fun e => Q 0 (.inr e)) s e) + w s = 0 := by
  have h1 := h.rows ht hE hf h0 s (.inr ())
  have h2 := h.shocksAt ht hE hf s
  rw [h2] at h1
  have hz : ∀ a : H, fcY (ε := ε) (H := H) m (.inl (.inr a)) = 0 := fun a => rfl
  simp only [AAc, BBU, CCU, fbY, hz, distRow, Fintype.sum_sum_type, zero_mul, Finset.sum_const_zero, add_zero, zero_add, mul_one] at h1
  simp only [yVec] at h1
  unfold declQP
  linear_combination h1

end Disturbed

theorem declQP_add (lay : Layout tol m H z p) (s : Nat) (v : ν) : declQP lay (Q + Q') (P + P') s v = declQP lay Q P s v + declQP lay Q' P' s v := by
  have e : xQP (Q + Q') (P + P') s = xQP Q P s - (0 - xQP Q' P' s) := by
    funext i; rcases i with i | i <;> simp [xQP, fullState]
  have e0 : lay.val (0 : p ⊕ z → K) (.inl v) = 0 := by
    unfold Layout.val; simp
  unfold declQP Layout.val at *
  have e1 : ∀ (P : Prop) [Decidable P] (a b : K), (if P then a + b else 0) = (if P then a else 0) + (if P then b else 0) := by
    intro P _ a b
    split_ifs <;> simp
  have e2 : xQP (Q + Q') (P + P') s = xQP Q P s + xQP Q' P' s := by
    funext i; rcases i with i | i <;> simp [xQP, fullState]
  rw [e2]
  simp only [Pi.add_apply, e1, Finset.sum_add_distrib]
  ring

theorem declQP_smul (lay : Layout tol m H z p) (c : K) (s : Nat) (v : ν) : declQP lay (c • Q) (c • P) s v = c * declQP lay Q P s v := by
  have e2 : xQP (c • Q) (c • P) s = c • xQP Q P s := by
    funext i; rcases i with i | i <;> simp [xQP, fullState]
  unfold declQP Layout.val
  rw [e2]
  simp only [Pi.smul_apply, smul_eq_mul, mul_add, Finset.mul_sum, mul_ite, mul_zero]

end

section Yaml
variable {D : Declared E ν ε K} {Z0 : Matrix o ν K} {Z1 : o → K} {tol : K} [DecidablePred (inall tol (yaml D Z0 Z1))]
  {lay : Layout tol (yaml D Z0 Z1) H z p}
  {orc : Oracle (Rows E H ε) (z ⊕ ε) p K} {lMax kMax : Nat} {sched : Nat → List Nat} {mod : Model z ε p o K}
  {n : Nat} {Q : Nat → z ⊕ ε → K} {P : Nat → p → K} {w : Nat → K}

/-- Joining the linear solution, in terms of its matrices. -/
theorem joins_iff_lin (h : Succeeded lay orc lMax kMax sched mod) {st0 : p ⊕ z → K} {eps : ε → K} {x : Nat → ν → K} :
    Spec.JoinsLinear lay mod st0 eps x n ↔
      ∀ s, n ≤ s → x s = Spec.linStep lay mod.omg mod.lam (prev st0 (fun s => stateOf lay (x s)) s) (shockAt eps s) := by
  unfold Spec.JoinsLinear
  refine forall_congr' fun s => imp_congr_right fun _ => ?_
  rw [← tFunc_linear, tFunc_linear_eq h]
  constructor
  · rintro ⟨r, h1, h2⟩
    cases h1
    funext v
    exact h2 v
  · intro h1
    refine ⟨_, rfl, fun v => ?_⟩
    conv_lhs => rw [h1]
    rfl

theorem succeeded_klein (h : Succeeded lay orc lMax kMax sched mod) : KleinOK (sysOf lay orc) mod.omg mod.lam := by
  obtain ⟨c, hm⟩ := genSys_ok h.perm h.gen
  exact h.orc.klein _ _ hm.kl

/-- A disturbed path, in terms of the declared variables. -/
theorem disturbed_declared (h : Succeeded lay orc lMax kMax sched mod) (hlag : Spec.LagsNotExpected D) (hself : D.rb D.cvar ≠ 1)
    (hd : Disturbed lay mod.omg mod.lam n Q P w) {st0 : p ⊕ z → K} {eps : ε → K} (h0 : Q 0 = q0Of st0 eps) :
    (∀ s, EqsHold D (lagVal lay st0) eps (declQP lay Q P) s) ∧
    (∀ s, declQP lay Q P s D.cvar = Spec.ruleAt (Spec.asSolved D) (lagVal lay st0) eps (declQP lay Q P) s + w s) ∧
    Spec.JoinsLinear lay mod st0 eps (declQP lay Q P) n := by
  have hf' := noLagFwd_of_not_expected (Z0 := Z0) (Z1 := Z1) hlag
  have ht := h.noTiny
  have hE := h.square
  have h0' : ∀ i, st0 (.inr i) = Q 0 (.inl i) := fun i => by rw [h0]; rfl
  have he : (fun e => Q 0 (.inr e)) = eps := by rw [h0]; rfl
  refine ⟨fun s => ?_, fun s => ?_, ?_⟩
  · have := hd.eqs ht hE hf' h0' s
    rw [he] at this
    exact this
  · have h1 := hd.conValue ht hE hf' h0' s
    have hne : (1 - D.rb D.cvar) ≠ 0 := sub_ne_zero.2 (Ne.symm hself)
    rw [sum_fbN, sum_fcY hself ht hlag, hd.lagged ht hE hf' st0 s, he] at h1
    simp only [fcY_shock] at h1
    have e1 : ∑ e, D.rd e * shockAt eps s e = D.rd ⬝ᵥ shockAt eps s := rfl
    rw [e1] at h1
    have e2 : (fun v => -D.rc v) = -D.rc := rfl
    have e3 : (fun e => (1 - D.rb D.cvar) * D.rd e) = (1 - D.rb D.cvar) • D.rd := rfl
    unfold Spec.ruleAt
    rw [Spec.ruleValue_eq]
    simp only [Spec.asSolved, e2, e3, neg_dotProduct, smul_dotProduct, smul_eq_mul]
    field_simp at h1 ⊢
    linear_combination -h1
  · rw [joins_iff_lin h]
    intro s hs
    obtain ⟨a, b⟩ := hd.lin s hs
    have e : q0Of (prev st0 (fun s => stateOf lay (declQP lay Q P s)) s) (shockAt eps s) = Q s := by
      cases s with
      | zero => exact h0.symm
      | succ s =>
        funext j
        rcases j with i | e
        · show stateOf lay (declQP lay Q P s) (.inr i) = _
          rw [hd.state ht hE hf' s]; rfl
        · exact (hd.shocks ht hE hf' s e).symm
    funext v
    unfold Spec.linStep
    rw [e, ← a, ← b]
    rfl

/-- If disturbances do not reverse, the system before the linear solution is joined is regular. -/
theorem regular_of_noReversal (h : Succeeded lay orc lMax kMax sched mod) (hlag : Spec.LagsNotExpected D) (hself : D.rb D.cvar ≠ 1)
    (hP : Spec.NoReversalOf lay mod) :
    (sysOf lay orc).T.toBlocks₂₂.det ≠ 0 ∧ (sysOf lay orc).W.toBlocks₂₂.det ≠ 0 ∧
      ((sysOf lay orc).S.toBlocks₁₁ + (sysOf lay orc).S.toBlocks₁₂ * mod.omg).det ≠ 0 := by
  obtain ⟨c, hm⟩ := genSys_ok h.perm h.gen
  obtain ⟨M', hS⟩ := hm.eng
  obtain ⟨h1, h2⟩ := normalise_iff.1 ⟨M', hS.norm⟩
  refine ⟨h1, h2, fun hdet => ?_⟩
  have hT := (sysOf_T12 h.orc).1
  have hk := succeeded_klein h
  have hf' := noLagFwd_of_not_expected (Z0 := Z0) (Z1 := Z1) hlag
  obtain ⟨v, hv, hv0⟩ := (exists_mulVec_eq_zero_iff (M := (sysOf lay orc).S.toBlocks₁₁ + (sysOf lay orc).S.toBlocks₁₂ * mod.omg)).2 hdet
  let u : p → K := (sysOf lay orc).T.toBlocks₂₂⁻¹ *ᵥ ((sysOf lay orc).S.toBlocks₂₁ *ᵥ v + (sysOf lay orc).S.toBlocks₂₂ *ᵥ (mod.omg *ᵥ v))
  have hu : (sysOf lay orc).T.toBlocks₂₂ *ᵥ u = (sysOf lay orc).S.toBlocks₂₁ *ᵥ v + (sysOf lay orc).S.toBlocks₂₂ *ᵥ (mod.omg *ᵥ v) := by
    show _ *ᵥ (_ *ᵥ _) = _
    rw [mulVec_mulVec, mul_nonsing_inv _ (isUnit_iff_ne_zero.2 h1), one_mulVec]
  have hd : Disturbed lay mod.omg mod.lam 1 (consP 0 (linQ mod.lam v)) (consP u (fun s => mod.omg *ᵥ linQ mod.lam v s)) 0 := by
    refine ⟨fun s => ?_, fun s hs => ?_⟩
    · rw [Pi.zero_apply, zero_smul, add_zero, ← sysOf_slack h.orc]
      cases s with
      | succ s => exact hk (linQ mod.lam v s)
      | zero =>
        show (sysOf lay orc).S *ᵥ Sum.elim v (mod.omg *ᵥ v) = (sysOf lay orc).T *ᵥ Sum.elim (0 : z ⊕ ε → K) u
        rw [mulVec_elim, mulVec_elim, hT, hu]
        rw [add_mulVec, ← mulVec_mulVec] at hv0
        rw [hv0]
        simp
    · cases s with
      | zero => omega
      | succ s => exact ⟨rfl, rfl⟩
  obtain ⟨a1, a2, a3⟩ := disturbed_declared h hlag hself hd (st0 := 0) (eps := 0) (by funext j; rcases j with i | i <;> rfl)
  have es : stateOf lay (0 : ν → K) = 0 := by
    have := stateOf_sub lay (0 : ν → K) 0
    rwa [sub_self, sub_self] at this
  have e0 : lagVal lay (0 : p ⊕ z → K) = 0 := by
    rw [← es]
    exact lagVal_stateOf lay h.square 0
  rw [e0] at a1 a2
  have b := hP _ 0 1 a1 a2 a3 (fun s => by simp)
  apply hv
  have c0 := hd.state h.noTiny h.square hf' 0
  rw [b, Pi.zero_apply, es] at c0
  funext j
  rcases j with i | e
  · have := congrFun c0 (.inr i)
    exact this.symm
  · exact hd.shocks h.noTiny h.square hf' 0 e

/-- All disturbances that end before period `n` have a path, from every start. -/
theorem disturbed_some (h : Succeeded lay orc lMax kMax sched mod) (hlag : Spec.LagsNotExpected D) (hself : D.rb D.cvar ≠ 1)
    (hP : Spec.NoReversalOf lay mod) (n : Nat) (w : Nat → K) (hw : ∀ s, n ≤ s → w s = 0) (q0 : z ⊕ ε → K) :
    ∃ Q P, Disturbed lay mod.omg mod.lam n Q P w ∧ Q 0 = q0 := by
  obtain ⟨h1, -, h2⟩ := regular_of_noReversal h hlag hself hP
  obtain ⟨a, ha⟩ := disturbed_exists (sysOf_T12 h.orc).1 (succeeded_klein h) h1 h2 n
    (fun s => (orc.rq (MU lay)ᵀ).2 *ᵥ (w s • distRow)) (fun s hs => by rw [hw s hs, zero_smul, mulVec_zero])
  obtain ⟨Q, P, g1, g2, g3, -⟩ := ha q0
  refine ⟨Q, P, ⟨fun s => ?_, g2⟩, g3⟩
  exact (rq_undo h.orc.rqU (PU lay) _ _ _).1 (g1 s)

end Yaml

end Pydsge
