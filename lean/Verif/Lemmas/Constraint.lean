import Verif.Lemmas.Solution

/-! # The constrained variable in slack and binding periods, and `t_func` on a solved model -/

set_option autoImplicit false
set_option linter.unusedSectionVars false
set_option linter.unusedSimpArgs false

namespace Pydsge.GenSys

open Matrix Pydsge.Engine Pydsge.Spec Pydsge.Tools

variable {E ν ε o K : Type} [Fintype E] [Fintype ν] [Fintype ε] [Fintype o]
  [DecidableEq E] [DecidableEq ν] [DecidableEq ε] [Field K] [LinearOrder K] [IsStrictOrderedRing K]
variable {H z p : Type} [DecidableEq H] [Fintype H] [Fintype z] [Fintype p] [DecidableEq z] [DecidableEq p]
variable {tol : K} {m : Input E ν ε o K} [DecidablePred (inall tol m)]
variable {lay : Layout tol m H z p} {orc : Oracle (Rows E H ε) (z ⊕ ε) p K} {lMax kMax : Nat}
  {mod : Model z ε p o K} {c : Nat → Nat → Cell (z ⊕ ε) p K}

theorem fbN_cvar (h : m.fb0 m.cvar ≠ 0) : fbN m m.cvar = -1 := by
  unfold fbN; rw [neg_div, div_self h]

/-- The value of any variable in a full state as a sum over the entries of `q` and `p`. -/
theorem val_split (st : p ⊕ z → K) (w : ν ⊕ H) (Q : z ⊕ ε → K) (hQ : ∀ i, st (.inr i) = Q (.inl i)) :
    (∑ j, if qi lay j = .inl w then Q j else 0) + (∑ j, if lay.pi j = w then st (.inl j) else 0) = lay.val st w := by
  unfold Layout.val
  rw [Fintype.sum_sum_type]
  simp only [qi, reduceCtorEq, if_false, Finset.sum_const_zero, add_zero, Sum.inl.injEq, hQ]

/-- In slack periods the constrained variable equals the value of the functional that the search checks. -/
theorem con_slack (hm : SolvedModel lay orc lMax kMax mod c) (ho : OracleOK lay orc) (hc : m.fb0 m.cvar ≠ 0)
    {l k : Nat} (hl : l ≤ lMax) (hk : k ≤ kMax) (q0 : z ⊕ ε → K) (s : Nat) (hs : ¬ BindsAt l k s) :
    declPath lay c l k q0 s m.cvar = pathValue (ff lay) c q0 l k s := by
  obtain ⟨M', hS⟩ := hm.eng
  have hs' : s < l ∨ l + k ≤ s := by unfold BindsAt at hs; omega
  have h1 := path_slack hS (sysOf_T12 ho).1 (ho.klein _ _ hm.kl) hl hk q0 s hs'
  rw [sysOf_slack ho] at h1
  have h2 := congrFun h1 (.inr ())
  rw [mulVec_apply_sum, mulVec_apply_sum] at h2
  simp only [PU, MU, AAc, BBU, CCU, neg_zero, zero_mul, Finset.sum_const_zero, add_zero] at h2
  have hq : ∀ j, fbY (H := H) m (qi lay j) * qPath c l k q0 (s+1) j =
      (ff lay).fq1 j * qPath c l k q0 (s+1) j - (if qi lay j = .inl (.inl m.cvar) then qPath c l k q0 (s+1) j else 0) := by
    intro j
    simp only [ff]
    by_cases h : qi lay j = .inl (.inl m.cvar)
    · rw [if_pos h, if_pos h, h]
      simp only [fbY, fbN_cvar hc]; ring
    · rw [if_neg h, if_neg h, sub_zero]
  have hp : ∀ j, fbY (H := H) (ε := ε) m (.inl (lay.pi j)) * pPath c l k q0 s j =
      (ff lay).fp1 j * pPath c l k q0 s j - (if lay.pi j = .inl m.cvar then pPath c l k q0 s j else 0) := by
    intro j
    simp only [ff]
    by_cases h : lay.pi j = .inl m.cvar
    · rw [if_pos h, if_pos h, h]
      simp only [fbY, fbN_cvar hc]; ring
    · rw [if_neg h, if_neg h, sub_zero]
  simp only [neg_mul, hq, hp, Finset.sum_neg_distrib, Finset.sum_sub_distrib] at h2
  have h3 := val_split (lay := lay) (xPath c l k q0 s) (.inl m.cvar) (qPath c l k q0 (s+1)) (fun i => rfl)
  have h4 : ∀ j, xPath c l k q0 s (.inl j) = pPath c l k q0 s j := fun j => rfl
  simp only [h4] at h3
  unfold declPath pathValue
  rw [← h3]
  simp only [dotProduct]
  have h5 : ∀ j, fcY (H := H) m (qi lay j) = (ff lay).fq0 j := fun j => rfl
  simp only [h5] at h2
  linear_combination h2

/-- In binding periods the constrained variable equals the bound. -/
theorem con_bind (hm : SolvedModel lay orc lMax kMax mod c) (ho : OracleOK lay orc)
    {l k : Nat} (hk : k ≤ kMax) (q0 : z ⊕ ε → K) (s : Nat) (hs : BindsAt l k s) :
    declPath lay c l k q0 s m.cvar = m.xbar := by
  obtain ⟨M', hS⟩ := hm.eng
  have h1 := path_binding hS (sysOf_T12 ho).2 hk q0 s hs.1 hs.2
  rw [sysOf_binding ho] at h1
  have h2 := congrFun h1 (.inr ())
  rw [Pi.add_apply, mulVec_apply_sum, mulVec_apply_sum] at h2
  simp only [PR, MR, AAc, BBR, CCR, gg, neg_zero, zero_mul, Finset.sum_const_zero, add_zero, Sum.inl.injEq, ite_mul, neg_mul,
    one_mul, zero_add, Finset.sum_neg_distrib] at h2
  have h3 := val_split (lay := lay) (xPath c l k q0 s) (.inl m.cvar) (qPath c l k q0 (s+1)) (fun i => rfl)
  have h4 : ∀ j, xPath c l k q0 s (.inl j) = pPath c l k q0 s j := fun j => rfl
  simp only [h4] at h3
  have e1 : ∀ j, (if qi lay j = .inl (.inl m.cvar) then -qPath c l k q0 (s+1) j else 0) =
      -(if qi lay j = .inl (.inl m.cvar) then qPath c l k q0 (s+1) j else 0) := by
    intro j; split_ifs <;> simp
  have e2 : ∀ j, (if lay.pi j = .inl m.cvar then -pPath c l k q0 s j else 0) =
      -(if lay.pi j = .inl m.cvar then pPath c l k q0 s j else 0) := by
    intro j; split_ifs <;> simp
  simp only [e1, e2, Finset.sum_neg_distrib] at h2
  unfold declPath
  rw [← h3]
  linear_combination h2

/-- `hstack((state, shocks))` -/
def q0Of (st : p ⊕ z → K) (eps : ε → K) : z ⊕ ε → K := Sum.elim (fun i => st (.inr i)) eps

theorem locCell_zero (c : Nat → Nat → Cell (z ⊕ ε) p K) (l k : Nat) : locCell c l k 0 = c l k := by
  unfold locCell lLoc kLoc
  congr 1
  omega

theorem xPath_zero (c : Nat → Nat → Cell (z ⊕ ε) p K) (l k : Nat) (q0 : z ⊕ ε → K) :
    xPath c l k q0 0 = Sum.elim ((c l k).pmat *ᵥ q0 + (c l k).pterm) (fun i => ((c l k).qmat *ᵥ q0 + (c l k).qterm) (.inl i)) := by
  unfold xPath fullState pPath
  simp only [qPath, locCell_zero]

/-- `t_func` with an imposed spell inside the tables. -/
theorem tFunc_pair (hm : SolvedModel lay orc lMax kMax mod c) [Nonempty z] (st : p ⊕ z → K) (eps : ε → K) {l k : Nat}
    (hl : l ≤ lMax) (hk : k ≤ kMax) :
    tFunc mod st eps (.pair l k) false = .ok ⟨xPath c l k (q0Of st eps) 0, l, k, 0⟩ := by
  obtain ⟨M', hS⟩ := hm.eng
  have hz : ¬ (Fintype.card z = 0 ∧ Fintype.card p ≠ 0) := by
    have := Fintype.card_ne_zero (α := z); tauto
  unfold tFunc tFuncRaw
  rw [if_neg hz]
  simp only [setLK, Bool.false_eq_true, if_false]
  rw [tFuncJit_set hS _ _ hl hk]
  rw [xPath_zero]
  rfl

/-- The result of a transition that searches for the equilibrium. -/
theorem tFunc_find (hm : SolvedModel lay orc lMax kMax mod c) [Nonempty z] (st : p ⊕ z → K) (eps : ε → K) {l k flag : Nat}
    (hf : findLk (checkCnst mod.tables (q0Of st eps)) mod.xbar (lMax + 1) (kMax + 1) = .ok (l, k, flag)) (hl : l ≤ lMax)
    (hk : k ≤ kMax) :
    tFunc mod st eps .none false = .ok ⟨xPath c l k (q0Of st eps) 0, l, k, flag⟩ := by
  obtain ⟨M', hS⟩ := hm.eng
  have hz : ¬ (Fintype.card z = 0 ∧ Fintype.card p ≠ 0) := by
    have := Fintype.card_ne_zero (α := z); tauto
  unfold tFunc tFuncRaw
  rw [if_neg hz]
  simp only [setLK, Bool.false_eq_true, if_false]
  unfold tFuncJit
  simp only [if_true]
  rw [hS.shapeL, hS.shapeK]
  rw [show (Sum.elim (fun i => st (Sum.inr i)) eps : z ⊕ ε → K) = q0Of st eps from rfl, hf]
  simp only
  rw [hS.complete.filled l k (by omega) (by omega)]
  rw [xPath_zero]

end Pydsge.GenSys
