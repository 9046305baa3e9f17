import Verif.Props.ConLag
import Verif.Lemmas.Solvable

/-!
# From paths of the reduced system to paths of the declared variables

`Lemmas/Solution.lean` does this for the paths of the precomputed cells; here it is done for any path that solves the two
systems, whether or not the tables exist.
-/

set_option autoImplicit false
set_option linter.unusedSectionVars false
set_option linter.unusedSimpArgs false

namespace Pydsge.GenSys

open Matrix Pydsge.Engine Pydsge.Spec Pydsge.Tools

variable {E ν ε o K : Type} [Fintype E] [Fintype ν] [Fintype ε] [Fintype o]
  [DecidableEq E] [DecidableEq ν] [DecidableEq ε] [Field K] [LinearOrder K] [IsStrictOrderedRing K]
variable {H z p : Type} [DecidableEq H] [Fintype H] [Fintype z] [Fintype p] [DecidableEq z] [DecidableEq p]
variable {tol : K} {m : Input E ν ε o K} [DecidablePred (inall tol m)]

/-- `(Q, P)` solves the slack system outside and the binding system inside the spell. -/
structure ReducedPath (lay : Layout tol m H z p) (l k : Nat) (Q : Nat → z ⊕ ε → K) (P : Nat → p → K) : Prop where
  slack : ∀ s, ¬ BindsAt l k s → PU lay *ᵥ Sum.elim (Q (s+1)) (P (s+1)) = MU lay *ᵥ Sum.elim (Q s) (P s)
  bind : ∀ s, BindsAt l k s → PR lay *ᵥ Sum.elim (Q (s+1)) (P (s+1)) = MR lay *ᵥ Sum.elim (Q s) (P s) + gg (H := H) m

variable {lay : Layout tol m H z p} {l k : Nat} {Q : Nat → z ⊕ ε → K} {P : Nat → p → K}

/-- full state in period `s` -/
def xQP (Q : Nat → z ⊕ ε → K) (P : Nat → p → K) (s : Nat) : p ⊕ z → K := fullState (P s) (Q (s+1))

theorem prevQP_z {st0 : p ⊕ z → K} (h0 : ∀ i, st0 (.inr i) = Q 0 (.inl i)) (s : Nat) (i : z) :
    prev st0 (xQP Q P) s (.inr i) = Q s (.inl i) := by
  cases s with
  | zero => exact h0 i
  | succ s => rfl

namespace ReducedPath

theorem rowsU (h : ReducedPath lay l k Q P) (ht : NoTiny tol m) (hE : Fintype.card E + 1 = Fintype.card ν) (hf : NoLagFwd m)
    {st0 : p ⊕ z → K} (h0 : ∀ i, st0 (.inr i) = Q 0 (.inl i)) (s : Nat) (hs : ¬ BindsAt l k s) (r : Rows E H ε) :
    (∑ y, AAc (H := H) m r y * yVec lay (xQP Q P (s+1)) (fun e => Q (s+1+1) (.inr e)) y) +
      (∑ y, BBU m lay.hyb r y * yVec lay (xQP Q P s) (fun e => Q (s+1) (.inr e)) y) +
      ∑ y, CCU tol m lay.hyb r y * yVec lay (prev st0 (xQP Q P) s) (fun e => Q s (.inr e)) y = 0 := by
  have h2 := congrFun (h.slack s hs) r
  rw [mulVec_apply_sum, mulVec_apply_sum] at h2
  have h3 := reduced_row lay hE (AAc (H := H) m r) (BBU m lay.hyb r) (CCU tol m lay.hyb r)
    (fun y hy => AAc_zero ht lay hf hy r) (fun y hy => CCU_zero ht lay.hyb hy r)
    (P s) (P (s+1)) (Q s) (Q (s+1)) (Q (s+1+1)) (prev st0 (xQP Q P) s) (prevQP_z h0 s)
  unfold xQP
  unfold xQP at h3
  rw [← h3]
  simp only [PU, MU, neg_mul, Finset.sum_neg_distrib] at h2
  linear_combination -h2

theorem rowsR (h : ReducedPath lay l k Q P) (ht : NoTiny tol m) (hE : Fintype.card E + 1 = Fintype.card ν) (hf : NoLagFwd m)
    {st0 : p ⊕ z → K} (h0 : ∀ i, st0 (.inr i) = Q 0 (.inl i)) (s : Nat) (hs : BindsAt l k s) (r : Rows E H ε) :
    (∑ y, AAc (H := H) m r y * yVec lay (xQP Q P (s+1)) (fun e => Q (s+1+1) (.inr e)) y) +
      (∑ y, BBR m lay.hyb r y * yVec lay (xQP Q P s) (fun e => Q (s+1) (.inr e)) y) +
      (∑ y, CCR tol m lay.hyb r y * yVec lay (prev st0 (xQP Q P) s) (fun e => Q s (.inr e)) y) + gg (H := H) m r = 0 := by
  have h2 := congrFun (h.bind s hs) r
  rw [Pi.add_apply, mulVec_apply_sum, mulVec_apply_sum] at h2
  have h3 := reduced_row lay hE (AAc (H := H) m r) (BBR m lay.hyb r) (CCR tol m lay.hyb r)
    (fun y hy => AAc_zero ht lay hf hy r) (fun y hy => CCR_zero ht lay.hyb hy r)
    (P s) (P (s+1)) (Q s) (Q (s+1)) (Q (s+1+1)) (prev st0 (xQP Q P) s) (prevQP_z h0 s)
  unfold xQP
  unfold xQP at h3
  rw [← h3]
  simp only [PR, MR, neg_mul, Finset.sum_neg_distrib] at h2
  linear_combination -h2

theorem rowsAll (h : ReducedPath lay l k Q P) (ht : NoTiny tol m) (hE : Fintype.card E + 1 = Fintype.card ν) (hf : NoLagFwd m)
    {st0 : p ⊕ z → K} (h0 : ∀ i, st0 (.inr i) = Q 0 (.inl i)) (s : Nat) (r : (E ⊕ H) ⊕ ε) :
    (∑ y, AA1 (H := H) m r y * yVec lay (xQP Q P (s+1)) (fun e => Q (s+1+1) (.inr e)) y) +
      (∑ y, BB1 m lay.hyb r y * yVec lay (xQP Q P s) (fun e => Q (s+1) (.inr e)) y) +
      ∑ y, CC1 tol m lay.hyb r y * yVec lay (prev st0 (xQP Q P) s) (fun e => Q s (.inr e)) y = 0 := by
  by_cases hs : BindsAt l k s
  · have := h.rowsR ht hE hf h0 s hs (.inl r)
    simpa only [AAc, BBR, CCR, gg, add_zero] using this
  · exact h.rowsU ht hE hf h0 s hs (.inl r)

/-- Shocks are expected to be zero. -/
theorem shocks (h : ReducedPath lay l k Q P) (ht : NoTiny tol m) (hE : Fintype.card E + 1 = Fintype.card ν) (hf : NoLagFwd m)
    (s : Nat) (e : ε) : Q (s+1) (.inr e) = 0 := by
  have := h.rowsAll ht hE hf (st0 := Sum.elim (fun _ => 0) (fun i => Q 0 (.inl i))) (fun i => rfl) s (.inr e)
  simp only [AA1, CC1, BB1, Fintype.sum_sum_type, zero_mul, Finset.sum_const_zero, zero_add, add_zero, ite_mul, one_mul,
    Finset.sum_ite_eq, Finset.mem_univ, if_true] at this
  exact this

/-- The auxiliary variables carry the value of their variable. -/
theorem aux (h : ReducedPath lay l k Q P) (ht : NoTiny tol m) (hE : Fintype.card E + 1 = Fintype.card ν) (hf : NoLagFwd m)
    (s : Nat) (a : H) : lay.val (xQP Q P s) (.inr a) = lay.val (xQP Q P s) (.inl (lay.hyb a)) := by
  have := h.rowsAll ht hE hf (st0 := Sum.elim (fun _ => 0) (fun i => Q 0 (.inl i))) (fun i => rfl) s (.inl (.inr a))
  simp only [AA1, CC1, BB1, Fintype.sum_sum_type, zero_mul, Finset.sum_const_zero, zero_add, add_zero, ite_mul, one_mul,
    Finset.sum_ite_eq, Finset.mem_univ, if_true, neg_mul] at this
  simp only [yVec] at this
  linear_combination this

end ReducedPath

/-- The declared variables along a path. -/
def declQP (lay : Layout tol m H z p) (Q : Nat → z ⊕ ε → K) (P : Nat → p → K) (s : Nat) (v : ν) : K :=
  lay.val (xQP Q P s) (.inl v)

namespace ReducedPath

theorem state (h : ReducedPath lay l k Q P) (ht : NoTiny tol m) (hE : Fintype.card E + 1 = Fintype.card ν) (hf : NoLagFwd m)
    (s : Nat) : stateOf lay (declQP lay Q P s) = xQP Q P s := by
  refine val_ext lay fun w => ?_
  rw [val_stateOf lay hE]
  rcases w with v | a
  · rfl
  · exact (h.aux ht hE hf s a).symm

theorem lagged (h : ReducedPath lay l k Q P) (ht : NoTiny tol m) (hE : Fintype.card E + 1 = Fintype.card ν) (hf : NoLagFwd m)
    (st0 : p ⊕ z → K) (s : Nat) : lagVal lay (prev st0 (xQP Q P) s) = prev (lagVal lay st0) (declQP lay Q P) s := by
  cases s with
  | zero => rfl
  | succ s =>
    show lagVal lay (xQP Q P s) = declQP lay Q P s
    rw [← h.state ht hE hf s]
    exact lagVal_stateOf lay hE _

theorem shocksAt (h : ReducedPath lay l k Q P) (ht : NoTiny tol m) (hE : Fintype.card E + 1 = Fintype.card ν) (hf : NoLagFwd m)
    (s : Nat) : (fun e => Q s (.inr e)) = shockAt (fun e => Q 0 (.inr e)) s := by
  cases s with
  | zero => rfl
  | succ s => funext e; exact h.shocks ht hE hf s e

theorem eqs (h : ReducedPath lay l k Q P) (ht : NoTiny tol m) (hE : Fintype.card E + 1 = Fintype.card ν) (hf : NoLagFwd m)
    {st0 : p ⊕ z → K} (h0 : ∀ i, st0 (.inr i) = Q 0 (.inl i)) (s : Nat) :
    m.AA0 *ᵥ declQP lay Q P (s+1) + m.BB0 *ᵥ declQP lay Q P s +
      m.CC0 *ᵥ prev (lagVal lay st0) (declQP lay Q P) s + m.DD0 *ᵥ shockAt (fun e => Q 0 (.inr e)) s = 0 := by
  funext e
  have h1 := h.rowsAll ht hE hf h0 s (.inl (.inl e))
  have h2 := h.shocksAt ht hE hf s
  rw [h2, sum_CC1, h.lagged ht hE hf] at h1
  simp only [AA1, BB1, Fintype.sum_sum_type, zero_mul, Finset.sum_const_zero, add_zero] at h1
  simp only [Pi.add_apply, mulVec, dotProduct, Pi.zero_apply]
  simp only [yVec] at h1
  have e1 : ∀ s v, lay.val (xQP Q P s) (.inl v) = declQP lay Q P s v := fun _ _ => rfl
  simp only [e1] at h1
  linear_combination h1

theorem bindingValue (h : ReducedPath lay l k Q P) (ht : NoTiny tol m) (hE : Fintype.card E + 1 = Fintype.card ν) (hf : NoLagFwd m)
    (s : Nat) (hs : BindsAt l k s) : declQP lay Q P s m.cvar = m.xbar := by
  have h1 := h.rowsR ht hE hf (st0 := Sum.elim (fun _ => 0) (fun i => Q 0 (.inl i))) (fun i => rfl) s hs (.inr ())
  simp only [AAc, BBR, CCR, gg, Fintype.sum_sum_type, zero_mul, Finset.sum_const_zero, add_zero, zero_add, ite_mul,
    reduceCtorEq, if_false, Sum.inl.injEq, neg_mul, one_mul, Finset.sum_ite_eq', Finset.mem_univ, if_true] at h1
  simp only [yVec] at h1
  unfold declQP
  linear_combination -h1

theorem slackValue (h : ReducedPath lay l k Q P) (ht : NoTiny tol m) (hE : Fintype.card E + 1 = Fintype.card ν) (hf : NoLagFwd m)
    {st0 : p ⊕ z → K} (h0 : ∀ i, st0 (.inr i) = Q 0 (.inl i)) (s : Nat) (hs : ¬ BindsAt l k s) :
    (∑ v, fbN m v * declQP lay Q P s v) +
      (∑ v, fcY (H := H) m (.inl (.inl v)) * lay.val (prev st0 (xQP Q P) s) (.inl v)) +
      ∑ e, fcY (H := H) m (.inr e) * shockAt (fun e => Q 0 (.inr e)) s e = 0 := by
  have h1 := h.rowsU ht hE hf h0 s hs (.inr ())
  have h2 := h.shocksAt ht hE hf s
  rw [h2] at h1
  have hz : ∀ a : H, fcY (ε := ε) (H := H) m (.inl (.inr a)) = 0 := fun a => rfl
  simp only [AAc, BBU, CCU, fbY, hz, Fintype.sum_sum_type, zero_mul, Finset.sum_const_zero, add_zero, zero_add] at h1
  simp only [yVec] at h1
  unfold declQP
  linear_combination h1

end ReducedPath

end Pydsge.GenSys

namespace Pydsge

open Matrix Pydsge.Engine Pydsge.Spec Pydsge.Tools Pydsge.GenSys

variable {E ν ε o K : Type} [Fintype E] [Fintype ν] [Fintype ε] [Fintype o]
  [DecidableEq E] [DecidableEq ν] [DecidableEq ε] [Field K] [LinearOrder K] [IsStrictOrderedRing K]
variable {H z p : Type} [DecidableEq H] [Fintype H] [Fintype z] [Fintype p] [DecidableEq z] [DecidableEq p]
variable {D : Declared E ν ε K} {Z0 : Matrix o ν K} {Z1 : o → K} {tol : K} [DecidablePred (inall tol (yaml D Z0 Z1))]
  {lay : Layout tol (yaml D Z0 Z1) H z p} {l k : Nat}

/-- A path of the reduced system is a path of the declared variables. -/
theorem solves_of_reduced {Q : Nat → z ⊕ ε → K} {P : Nat → p → K} (h : ReducedPath lay l k Q P)
    (ht : NoTiny tol (yaml D Z0 Z1)) (hE : Fintype.card E + 1 = Fintype.card ν) (hf : Spec.LagsNotExpected D)
    (hself : D.rb D.cvar ≠ 1) {st0 : p ⊕ z → K} (h0 : ∀ i, st0 (.inr i) = Q 0 (.inl i)) :
    SolvesUnderSpell (Spec.asSolved D) (lagVal lay st0) (fun e => Q 0 (.inr e)) (declQP lay Q P) l k := by
  have hf' := noLagFwd_of_not_expected (Z0 := Z0) (Z1 := Z1) hf
  refine ⟨fun s => h.eqs ht hE hf' h0 s, fun s hs => ?_, fun s hs => h.bindingValue ht hE hf' s hs⟩
  have h1 := h.slackValue ht hE hf' h0 s hs
  have hd : (1 - D.rb D.cvar) ≠ 0 := sub_ne_zero.2 (Ne.symm hself)
  rw [sum_fbN, sum_fcY hself ht hf, h.lagged ht hE hf' st0 s] at h1
  simp only [fcY_shock] at h1
  have e1 : ∑ e, D.rd e * shockAt (fun e => Q 0 (.inr e)) s e = D.rd ⬝ᵥ shockAt (fun e => Q 0 (.inr e)) s := rfl
  rw [e1] at h1
  have e2 : (fun v => -D.rc v) = -D.rc := rfl
  have e3 : (fun e => (1 - D.rb D.cvar) * D.rd e) = (1 - D.rb D.cvar) • D.rd := rfl
  simp only [notional, Spec.asSolved, e2, e3, neg_dotProduct, smul_dotProduct, smul_eq_mul]
  field_simp at h1
  linear_combination -h1

/-- And the other way round. -/
theorem reduced_of_solves {st0 : p ⊕ z → K} {eps : ε → K} {x : Nat → ν → K}
    (ht : NoTiny tol (yaml D Z0 Z1)) (hE : Fintype.card E + 1 = Fintype.card ν) (hf : Spec.LagsNotExpected D)
    (hself : D.rb D.cvar ≠ 1) (hx : SolvesUnderSpell (Spec.asSolved D) (lagVal lay st0) eps x l k) :
    ReducedPath lay l k (qOf lay st0 eps x) (pOf lay x) := by
  have hf' := noLagFwd_of_not_expected (Z0 := Z0) (Z1 := Z1) hf
  exact ⟨fun s hs => slack_of_rows lay st0 eps x ht hE hf' s
      (rows_slack_of_solved ht hE hf hself st0 eps x s (hx.eqs s) (hx.slack s hs)),
    fun s hs => binding_of_rows lay st0 eps x ht hE hf' s
      (rows_binding_of lay st0 eps x hE s (hx.eqs s) (hx.binding s hs))⟩

end Pydsge
