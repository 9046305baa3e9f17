import Verif.Props.Solution

/-!
# Uniqueness of the paths that preprocessing encodes

The recursion of `preprocess` only inverts matrices, so a path that solves the two systems period by period and follows the
linear law after the spell is the path that the precomputed cells encode.
-/

set_option autoImplicit false
set_option linter.unusedSectionVars false
set_option linter.unusedSimpArgs false

namespace Pydsge.Engine

open Matrix

section
variable {q p K : Type} [Fintype q] [Fintype p] [DecidableEq q] [DecidableEq p] [Field K] [DecidableEq K]

/-- One step of the recursion backwards: the only `q1` and `p0` that solve the system. -/
theorem stepCell_unique {M : Sys q p K} {l : Nat} {c c' : Cell q p K} (h : stepCell M l c = .ok c')
    (h12 : (rhsMat M l).toBlocks₁₂ = 0) (h22 : (rhsMat M l).toBlocks₂₂ = 1) (q0 q1 : q → K) (p0 p1 : p → K)
    (hp : p1 = c.pmat *ᵥ q1 + c.pterm)
    (he : lhsMat M l *ᵥ Sum.elim q1 p1 = rhsMat M l *ᵥ Sum.elim q0 p0 + rhsVec M l) :
    q1 = c'.qmat *ᵥ q0 + c'.qterm ∧ p0 = c'.pmat *ᵥ q0 + c'.pterm := by
  have hsol := stepCell_solves h h12 h22 q0
  unfold stepCell getLam at h
  dsimp only at h
  have hA : (if l ≠ 0 then M.S else M.V) = lhsMat M l := rfl
  rw [hA] at h
  cases hinv : npInv ((lhsMat M l).toBlocks₁₁ + (lhsMat M l).toBlocks₁₂ * c.pmat) with
  | error e => rw [hinv] at h; cases h
  | ok inv =>
    have hi := (npInv_ok hinv).2
    clear h hA hinv
    generalize lhsMat M l = A at *
    generalize rhsMat M l = B at *
    generalize rhsVec M l = v at *
    obtain ⟨c1, c2, rfl⟩ : ∃ c1 c2, v = Sum.elim c1 c2 :=
      ⟨fun i => v (.inl i), fun i => v (.inr i), by funext i; cases i <;> rfl⟩
    generalize hq' : c'.qmat *ᵥ q0 + c'.qterm = q1' at *
    generalize hp' : c'.pmat *ᵥ q0 + c'.pterm = p0' at *
    rw [mulVec_elim, mulVec_elim, h12, h22, ← Sum.elim_add_add, sumElim_eq_iff] at hsol he
    obtain ⟨s1, s2⟩ := hsol
    obtain ⟨e1, e2⟩ := he
    have hq : q1 = q1' := by
      have e3 : (A.toBlocks₁₁ + A.toBlocks₁₂ * c.pmat) *ᵥ q1 = (A.toBlocks₁₁ + A.toBlocks₁₂ * c.pmat) *ᵥ q1' := by
        rw [hp, zero_mulVec, add_zero, mulVec_add] at e1
        rw [zero_mulVec, add_zero, mulVec_add] at s1
        have := e1.trans s1.symm
        rw [add_mulVec, add_mulVec, ← mulVec_mulVec, ← mulVec_mulVec]
        rw [← add_assoc, ← add_assoc] at this
        exact add_right_cancel this
      have := congrArg (fun w => inv *ᵥ w) e3
      simpa only [mulVec_mulVec, hi, one_mulVec] using this
    refine ⟨hq, ?_⟩
    rw [hp, hq] at e2
    have := e2.symm.trans s2
    rw [one_mulVec, one_mulVec] at this
    exact add_left_cancel (add_right_cancel this)

variable {M M' : Sys q p K} {f : Fun3 q p K} {omg : Matrix p q K} {lam : Matrix q q K} {lMax kMax : Nat}
  {t : Tables q p K} {c : Nat → Nat → Cell q p K}

/-- A path that solves the slack and the binding system in the periods of the spell and follows the linear law afterwards is
the path of the cells. -/
theorem path_unique (hS : Solved M M' f omg lam lMax kMax t c) (hT : M.T.toBlocks₁₂ = 0) (hW : M.W.toBlocks₁₂ = 0)
    {l k : Nat} (hl : l ≤ lMax) (hk : k ≤ kMax) (Q : Nat → q → K) (P : Nat → p → K)
    (hsl : ∀ s < l, M.S *ᵥ Sum.elim (Q (s+1)) (P (s+1)) = M.T *ᵥ Sum.elim (Q s) (P s))
    (hbi : ∀ s, l ≤ s → s < l + k → M.V *ᵥ Sum.elim (Q (s+1)) (P (s+1)) = M.W *ᵥ Sum.elim (Q s) (P s) + M.h)
    (hli : ∀ s, l + k ≤ s → P s = omg *ᵥ Q s ∧ Q (s+1) = lam *ᵥ Q s) :
    (∀ s, Q s = qPath c l k (Q 0) s) ∧ (∀ s, P s = pPath c l k (Q 0) s) := by
  obtain ⟨n1, n2, n3, n4, n5, n6⟩ := normalise_ok hS.norm
  have hend : ∀ s, l + k ≤ s → locCell c l k s = ⟨omg, 0, lam, 0⟩ := by
    intro s' hs'
    rw [← hS.complete.start]
    unfold locCell lLoc kLoc
    congr 1 <;> omega
  -- backward induction over the periods of the spell
  have law : ∀ n s, l + k ≤ s + n → P s = (locCell c l k s).pmat *ᵥ Q s + (locCell c l k s).pterm ∧
      Q (s+1) = (locCell c l k s).qmat *ᵥ Q s + (locCell c l k s).qterm := by
    intro n
    induction n with
    | zero =>
      intro s hs
      have := hli s hs
      rw [hend s (by omega)]
      simpa using this
    | succ n ih =>
      intro s hs
      by_cases hle : l + k ≤ s + n
      · exact ih s hle
      have hnext := (ih (s+1) (by omega)).1
      by_cases hsl' : s < l
      · have hloc : locCell c l k s = c (l - s) k := by
          unfold locCell lLoc kLoc; congr 1; omega
        have hloc' : locCell c l k (s+1) = c (lastIdx (l - s) k).1 (lastIdx (l - s) k).2 := by
          rw [lastIdx_pos (by omega)]
          unfold locCell lLoc kLoc; congr 1; omega
        have hst := hS.complete.step (l - s) k (by omega) (by omega) (Or.inr (by omega))
        have hne : l - s ≠ 0 := by omega
        have he := (n1 _ _).2 (hsl s hsl')
        rw [hloc'] at hnext
        have := stepCell_unique hst (by simp [rhsMat, hne, n5, hT]) (by simp [rhsMat, hne, n3]) (Q s) (Q (s+1)) (P s) (P (s+1))
          hnext (by simpa [lhsMat, rhsMat, rhsVec, hne] using he)
        rw [hloc]
        exact ⟨this.2, this.1⟩
      · have hloc : locCell c l k s = c 0 (k + l - s) := by
          unfold locCell lLoc kLoc; congr 1 <;> omega
        have hloc' : locCell c l k (s+1) = c (lastIdx 0 (k + l - s)).1 (lastIdx 0 (k + l - s)).2 := by
          rw [lastIdx_zero]
          unfold locCell lLoc kLoc; congr 1 <;> omega
        have hst := hS.complete.step 0 (k + l - s) (by omega) (by omega) (Or.inl (by omega))
        have he := (n2 _ _).2 (hbi s (by omega) (by omega))
        rw [hloc'] at hnext
        have := stepCell_unique hst (by simp [rhsMat, n6, hW]) (by simp [rhsMat, n4]) (Q s) (Q (s+1)) (P s) (P (s+1))
          hnext (by simpa [lhsMat, rhsMat, rhsVec] using he)
        rw [hloc]
        exact ⟨this.2, this.1⟩
  have hQ : ∀ s, Q s = qPath c l k (Q 0) s := by
    intro s
    induction s with
    | zero => rfl
    | succ s ih =>
      rw [(law (l + k) s (by omega)).2]
      simp only [qPath, ← ih]
  refine ⟨hQ, fun s => ?_⟩
  rw [(law (l + k) s (by omega)).1]
  simp only [pPath, ← hQ s]

end
end Pydsge.Engine

namespace Pydsge.GenSys

open Matrix Pydsge.Engine Pydsge.Spec Pydsge.Tools

variable {E ν ε o K : Type} [Fintype E] [Fintype ν] [Fintype ε] [Fintype o]
  [DecidableEq E] [DecidableEq ν] [DecidableEq ε] [Field K] [LinearOrder K] [IsStrictOrderedRing K]
variable {H z p : Type} [DecidableEq H] [Fintype H] [Fintype z] [Fintype p] [DecidableEq z] [DecidableEq p]
variable {tol : K} {m : Input E ν ε o K} [DecidablePred (inall tol m)]

/-- The state vector that belongs to given values of the declared variables: the auxiliary lags carry the value of their
variable. -/
def stateOf (lay : Layout tol m H z p) (x : ν → K) : p ⊕ z → K :=
  Sum.elim (fun j => Sum.elim x (fun h => x (lay.hyb h)) (lay.pi j)) (fun i => Sum.elim x (fun h => x (lay.hyb h)) (lay.zi i))

theorem val_stateOf (lay : Layout tol m H z p) (hE : Fintype.card E + 1 = Fintype.card ν) (x : ν → K) (w : ν ⊕ H) :
    lay.val (stateOf lay x) w = Sum.elim x (fun h => x (lay.hyb h)) w := by
  obtain ⟨i, rfl⟩ := (lay.names_bij hE).2 w
  rcases i with i | j
  · exact lay.val_z _ i
  · exact lay.val_p _ j

theorem lagVal_stateOf (lay : Layout tol m H z p) (hE : Fintype.card E + 1 = Fintype.card ν) (x : ν → K) :
    lagVal lay (stateOf lay x) = x := by
  funext v
  by_cases hi : inall tol m v
  · obtain ⟨h, rfl⟩ := (lay.hyb_range v).2 hi
    rw [lagVal_hyb, val_stateOf lay hE]; rfl
  · unfold lagVal
    rw [if_neg hi, val_stateOf lay hE]; rfl

/-- Two full states with the same values of all names are equal. -/
theorem val_ext (lay : Layout tol m H z p) {a b : p ⊕ z → K} (h : ∀ w, lay.val a w = lay.val b w) : a = b := by
  funext i
  rcases i with j | i
  · rw [← lay.val_p a j, ← lay.val_p b j, h]
  · rw [← lay.val_z a i, ← lay.val_z b i, h]

section Path
variable (lay : Layout tol m H z p) (hE : Fintype.card E + 1 = Fintype.card ν) (st0 : p ⊕ z → K) (eps : ε → K)
  (x : Nat → ν → K)

/-- the `q` entries along a path of declared variables -/
def qOf (s : Nat) : z ⊕ ε → K := q0Of (prev st0 (fun s => stateOf lay (x s)) s) (shockAt eps s)

/-- the `p` entries along a path of declared variables -/
def pOf (s : Nat) : p → K := fun j => stateOf lay (x s) (.inl j)

theorem fullState_of (s : Nat) : fullState (pOf lay x s) (qOf lay st0 eps x (s+1)) = stateOf lay (x s) := by
  funext i
  rcases i with j | i
  · rfl
  · rfl

theorem lagVal_prev_of (hE : Fintype.card E + 1 = Fintype.card ν) (s : Nat) :
    lagVal lay (prev st0 (fun s => stateOf lay (x s)) s) = prev (lagVal lay st0) x s := by
  cases s with
  | zero => rfl
  | succ s => exact lagVal_stateOf lay hE (x s)

/-- All rows but the constraint, from the declared equations. -/
theorem rows_of_eqs (hE : Fintype.card E + 1 = Fintype.card ν) (s : Nat)
    (h : m.AA0 *ᵥ x (s+1) + m.BB0 *ᵥ x s + m.CC0 *ᵥ prev (lagVal lay st0) x s + m.DD0 *ᵥ shockAt eps s = 0)
    (r : (E ⊕ H) ⊕ ε) :
    (∑ y, AA1 (H := H) m r y * yVec lay (stateOf lay (x (s+1))) 0 y) +
      (∑ y, BB1 m lay.hyb r y * yVec lay (stateOf lay (x s)) 0 y) +
      ∑ y, CC1 tol m lay.hyb r y * yVec lay (prev st0 (fun s => stateOf lay (x s)) s) (shockAt eps s) y = 0 := by
  rcases r with (e | a) | e
  · rw [sum_CC1, lagVal_prev_of lay st0 x hE]
    have := congrFun h e
    simp only [Pi.add_apply, mulVec, dotProduct, Pi.zero_apply] at this
    simp only [AA1, BB1, Fintype.sum_sum_type, zero_mul, Finset.sum_const_zero, add_zero, yVec, val_stateOf lay hE,
      Sum.elim_inl]
    linear_combination this
  · simp only [AA1, BB1, CC1, Fintype.sum_sum_type, zero_mul, Finset.sum_const_zero, add_zero, zero_add, yVec,
      val_stateOf lay hE, Sum.elim_inl, Sum.elim_inr, ite_mul, one_mul, neg_mul, Finset.sum_ite_eq, Finset.mem_univ, if_true]
    ring
  · simp only [AA1, BB1, CC1, Fintype.sum_sum_type, zero_mul, Finset.sum_const_zero, add_zero, zero_add, yVec,
      ite_mul, one_mul, Pi.zero_apply, Finset.sum_ite_eq, Finset.mem_univ, if_true, ite_self]

/-- The slack system in terms of `q` and `p`, from the rows in y-space. -/
theorem slack_of_rows (ht : NoTiny tol m) (hE : Fintype.card E + 1 = Fintype.card ν) (hf : NoLagFwd m) (s : Nat)
    (h : ∀ r : Rows E H ε, (∑ y, AAc (H := H) m r y * yVec lay (stateOf lay (x (s+1))) 0 y) +
      (∑ y, BBU m lay.hyb r y * yVec lay (stateOf lay (x s)) 0 y) +
      ∑ y, CCU tol m lay.hyb r y * yVec lay (prev st0 (fun s => stateOf lay (x s)) s) (shockAt eps s) y = 0) :
    PU lay *ᵥ Sum.elim (qOf lay st0 eps x (s+1)) (pOf lay x (s+1)) =
      MU lay *ᵥ Sum.elim (qOf lay st0 eps x s) (pOf lay x s) := by
  funext r
  rw [mulVec_apply_sum, mulVec_apply_sum]
  have h3 := reduced_row lay hE (AAc (H := H) m r) (BBU m lay.hyb r) (CCU tol m lay.hyb r)
    (fun y hy => AAc_zero ht lay hf hy r) (fun y hy => CCU_zero ht lay.hyb hy r)
    (pOf lay x s) (pOf lay x (s+1)) (qOf lay st0 eps x s) (qOf lay st0 eps x (s+1)) (qOf lay st0 eps x (s+1+1))
    (prev st0 (fun s => stateOf lay (x s)) s) (fun i => rfl)
  rw [fullState_of, fullState_of] at h3
  have h4 := h3.trans (h r)
  simp only [PU, MU, neg_mul, Finset.sum_neg_distrib]
  linear_combination -h4

/-- The binding system likewise. -/
theorem binding_of_rows (ht : NoTiny tol m) (hE : Fintype.card E + 1 = Fintype.card ν) (hf : NoLagFwd m) (s : Nat)
    (h : ∀ r : Rows E H ε, (∑ y, AAc (H := H) m r y * yVec lay (stateOf lay (x (s+1))) 0 y) +
      (∑ y, BBR m lay.hyb r y * yVec lay (stateOf lay (x s)) 0 y) +
      (∑ y, CCR tol m lay.hyb r y * yVec lay (prev st0 (fun s => stateOf lay (x s)) s) (shockAt eps s) y) +
      gg (H := H) m r = 0) :
    PR lay *ᵥ Sum.elim (qOf lay st0 eps x (s+1)) (pOf lay x (s+1)) =
      MR lay *ᵥ Sum.elim (qOf lay st0 eps x s) (pOf lay x s) + gg (H := H) m := by
  funext r
  rw [Pi.add_apply, mulVec_apply_sum, mulVec_apply_sum]
  have h3 := reduced_row lay hE (AAc (H := H) m r) (BBR m lay.hyb r) (CCR tol m lay.hyb r)
    (fun y hy => AAc_zero ht lay hf hy r) (fun y hy => CCR_zero ht lay.hyb hy r)
    (pOf lay x s) (pOf lay x (s+1)) (qOf lay st0 eps x s) (qOf lay st0 eps x (s+1)) (qOf lay st0 eps x (s+1+1))
    (prev st0 (fun s => stateOf lay (x s)) s) (fun i => rfl)
  rw [fullState_of, fullState_of] at h3
  have h4 := h3.trans (eq_neg_of_add_eq_zero_left (h r))
  simp only [PR, MR, neg_mul, Finset.sum_neg_distrib]
  linear_combination -h4

end Path

section Decl
variable {D : Declared E ν ε K} {Z0 : Matrix o ν K} {Z1 : o → K} [DecidablePred (inall tol (yaml D Z0 Z1))]
  (lay : Layout tol (yaml D Z0 Z1) H z p) (st0 : p ⊕ z → K) (eps : ε → K) (x : Nat → ν → K)

/-- The slack rows, from the declared model. -/
theorem rows_slack_of (hE : Fintype.card E + 1 = Fintype.card ν) (hlag : D.rc = 0) (hself : D.rb D.cvar ≠ 1)
    (hsh : D.rb D.cvar = 0 ∨ D.rd = 0) (s : Nat) (h : EqsHold D (lagVal lay st0) eps x s)
    (hc : x s D.cvar = notional D (lagVal lay st0) eps x s) (r : Rows E H ε) :
    (∑ y, AAc (H := H) (yaml D Z0 Z1) r y * yVec lay (stateOf lay (x (s+1))) 0 y) +
      (∑ y, BBU (yaml D Z0 Z1) lay.hyb r y * yVec lay (stateOf lay (x s)) 0 y) +
      ∑ y, CCU tol (yaml D Z0 Z1) lay.hyb r y * yVec lay (prev st0 (fun s => stateOf lay (x s)) s) (shockAt eps s) y = 0 := by
  rcases r with r | r
  · exact rows_of_eqs lay st0 eps x hE s h r
  have e1 : ∀ v, fbN (yaml D Z0 Z1) v = (D.rb v - if v = D.cvar then 1 else 0) / (1 - D.rb D.cvar) := by
    intro v
    show -((if v = D.cvar then (1:K) else 0) - D.rb v) / ((if D.cvar = D.cvar then (1:K) else 0) - D.rb D.cvar) = _
    rw [if_pos rfl, neg_sub]
  have e2 : ∀ v, fcY (H := H) (ε := ε) (yaml D Z0 Z1) (.inl (.inl v)) = 0 := by
    intro v
    show -(-(-D.rc v) / _) = 0
    rw [hlag]; simp
  have e6 : ∀ v, fcY (H := H) (ε := ε) (yaml D Z0 Z1) (.inl (.inr v)) = 0 := fun _ => rfl
  have e3 : ∀ e, fcY (H := H) (ε := ε) (yaml D Z0 Z1) (.inr e) = D.rd e := by
    intro e
    show -(-D.rd e) = _
    rw [neg_neg]
  have hd : (1 - D.rb D.cvar) ≠ 0 := sub_ne_zero.2 (Ne.symm hself)
  have e5 : ∑ v, (D.rb v - if v = D.cvar then 1 else 0) / (1 - D.rb D.cvar) * x s v =
      ((∑ v, D.rb v * x s v) - x s D.cvar) / (1 - D.rb D.cvar) := by
    have : ∀ v, (D.rb v - if v = D.cvar then 1 else 0) / (1 - D.rb D.cvar) * x s v =
        (D.rb v * x s v - if v = D.cvar then x s v else 0) / (1 - D.rb D.cvar) := by
      intro v
      split_ifs <;> ring
    simp only [this, ← Finset.sum_div, Finset.sum_sub_distrib, Finset.sum_ite_eq', Finset.mem_univ, if_true]
  simp only [AAc, BBU, CCU, fbY, e2, e6, e3, e1, Fintype.sum_sum_type, zero_mul, Finset.sum_const_zero, add_zero, zero_add, yVec,
    val_stateOf lay hE, Sum.elim_inl]
  rw [e5]
  unfold notional at hc
  rw [hlag] at hc
  simp only [dotProduct, Pi.zero_apply, zero_mul, Finset.sum_const_zero, add_zero] at hc
  rcases hsh with hsh | hsh
  · rw [hsh, sub_zero, div_one]
    linear_combination -hc
  · simp only [hsh, Pi.zero_apply, zero_mul, Finset.sum_const_zero, add_zero] at hc ⊢
    rw [div_eq_zero_iff]
    left
    linear_combination -hc

/-- The binding rows, from the declared model. -/
theorem rows_binding_of (hE : Fintype.card E + 1 = Fintype.card ν) (s : Nat) (h : EqsHold D (lagVal lay st0) eps x s)
    (hc : x s D.cvar = D.xbar) (r : Rows E H ε) :
    (∑ y, AAc (H := H) (yaml D Z0 Z1) r y * yVec lay (stateOf lay (x (s+1))) 0 y) +
      (∑ y, BBR (yaml D Z0 Z1) lay.hyb r y * yVec lay (stateOf lay (x s)) 0 y) +
      (∑ y, CCR tol (yaml D Z0 Z1) lay.hyb r y * yVec lay (prev st0 (fun s => stateOf lay (x s)) s) (shockAt eps s) y) +
      gg (H := H) (yaml D Z0 Z1) r = 0 := by
  rcases r with r | r
  · have := rows_of_eqs lay st0 eps x hE s h r
    simpa only [AAc, BBR, CCR, gg, add_zero] using this
  have e1 : (yaml D Z0 Z1).cvar = D.cvar := rfl
  have e2 : (yaml D Z0 Z1).xbar = D.xbar := rfl
  simp only [AAc, BBR, CCR, gg, Fintype.sum_sum_type, zero_mul, Finset.sum_const_zero, add_zero, zero_add, ite_mul,
    reduceCtorEq, if_false, Sum.inl.injEq, neg_mul, one_mul, Finset.sum_ite_eq', Finset.mem_univ, if_true, yVec,
    val_stateOf lay hE, Sum.elim_inl, e1, e2]
  linear_combination -hc

end Decl
end Pydsge.GenSys
