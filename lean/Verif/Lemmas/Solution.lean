import Verif.Lemmas.GenSys
import Verif.Model.Tools
import Verif.Spec.Declared

/-! # Paths generated by `t_func` solve the augmented system -/

set_option autoImplicit false
set_option linter.unusedSectionVars false
set_option linter.unusedSimpArgs false

namespace Pydsge.GenSys

open Matrix Pydsge.Engine Pydsge.Spec Pydsge.Tools

variable {E ν ε o K : Type} [Fintype E] [Fintype ν] [Fintype ε] [Fintype o]
  [DecidableEq E] [DecidableEq ν] [DecidableEq ε] [Field K] [LinearOrder K] [IsStrictOrderedRing K]
variable {H z p : Type} [DecidableEq H] [Fintype H] [Fintype z] [Fintype p] [DecidableEq z] [DecidableEq p]
variable {tol : K} {m : Input E ν ε o K} [DecidablePred (inall tol m)]

/-- Everything we know about a successful `gen_sys`. -/
structure SolvedModel (lay : Layout tol m H z p) (orc : Oracle (Rows E H ε) (z ⊕ ε) p K) (lMax kMax : Nat)
    (mod : Model z ε p o K) (c : Nat → Nat → Cell (z ⊕ ε) p K) : Prop where
  kl : orc.klein (sysOf lay orc).S (sysOf lay orc).T = .ok (mod.omg, mod.lam)
  eng : ∃ M', Solved (sysOf lay orc) M' (ff lay) mod.omg mod.lam lMax kMax mod.tables c
  xbar : mod.xbar = m.xbar
  ff : mod.ff = ff lay
  lks : mod.lks = (lMax, kMax)
  hx : mod.hx = hx lay

theorem genSys_ok {lay : Layout tol m H z p} {orc : Oracle (Rows E H ε) (z ⊕ ε) p K} {lMax kMax : Nat}
    {sched : Nat → List Nat} (hs : ∀ l < lMax + 1, (sched l).Perm (List.range (kMax + 1))) {mod : Model z ε p o K}
    (h : genSys lay orc lMax kMax sched = .ok mod) : ∃ c, SolvedModel lay orc lMax kMax mod c := by
  unfold genSys at h
  dsimp only at h
  cases hk : orc.klein (sysOf lay orc).S (sysOf lay orc).T with
  | error e => rw [hk] at h; cases h
  | ok ol =>
    obtain ⟨omg, lam⟩ := ol
    rw [hk] at h
    dsimp only at h
    cases hp : preprocess (sysOf lay orc) (GenSys.ff lay) omg lam lMax kMax sched with
    | error e => rw [hp] at h; cases h
    | ok t =>
      rw [hp] at h
      simp only [Except.ok.injEq] at h
      subst h
      obtain ⟨M', c, hS⟩ := preprocess_ok hs hp
      exact ⟨c, hk, ⟨M', hS⟩, rfl, rfl, rfl, rfl⟩

variable {lay : Layout tol m H z p} {orc : Oracle (Rows E H ε) (z ⊕ ε) p K} {lMax kMax : Nat}
  {mod : Model z ε p o K} {c : Nat → Nat → Cell (z ⊕ ε) p K}

/-- full state in period `s` of the path under `(l,k)` from `q0` -/
def xPath (c : Nat → Nat → Cell (z ⊕ ε) p K) (l k : Nat) (q0 : z ⊕ ε → K) (s : Nat) : p ⊕ z → K :=
  fullState (pPath c l k q0 s) (qPath c l k q0 (s+1))

/-- full state before period `s` -/
def xPrev (c : Nat → Nat → Cell (z ⊕ ε) p K) (l k : Nat) (st0 : p ⊕ z → K) (q0 : z ⊕ ε → K) : Nat → p ⊕ z → K
  | 0 => st0
  | s + 1 => xPath c l k q0 s

/-- y-space values in period `s` -/
def yPath (lay : Layout tol m H z p) (c : Nat → Nat → Cell (z ⊕ ε) p K) (l k : Nat) (q0 : z ⊕ ε → K) (s : Nat) :
    Cols ν H ε → K :=
  yVec lay (xPath c l k q0 s) (fun e => qPath c l k q0 (s+1) (.inr e))

/-- lagged y-space values in period `s` (the shock entries are the shocks that hit in `s`) -/
def yLag (lay : Layout tol m H z p) (c : Nat → Nat → Cell (z ⊕ ε) p K) (l k : Nat) (st0 : p ⊕ z → K) (q0 : z ⊕ ε → K)
    (s : Nat) : Cols ν H ε → K :=
  yVec lay (xPrev c l k st0 q0 s) (fun e => qPath c l k q0 s (.inr e))

theorem xPrev_z (l k : Nat) (st0 : p ⊕ z → K) (q0 : z ⊕ ε → K) (h0 : ∀ i, st0 (.inr i) = q0 (.inl i)) (s : Nat) (i : z) :
    xPrev c l k st0 q0 s (.inr i) = qPath c l k q0 s (.inl i) := by
  cases s with
  | zero => exact h0 i
  | succ s => rfl

theorem mulVec_apply_sum {r a b : Type} [Fintype a] [Fintype b] (A : Matrix r (a ⊕ b) K) (x : a → K) (y : b → K) (i : r) :
    (A *ᵥ Sum.elim x y) i = (∑ j, A i (.inl j) * x j) + ∑ j, A i (.inr j) * y j := by
  simp only [mulVec, dotProduct, Fintype.sum_sum_type, Sum.elim_inl, Sum.elim_inr]

/-- Slack periods: every row of the augmented system holds. -/
theorem rows_slack (hm : SolvedModel lay orc lMax kMax mod c) (ho : OracleOK lay orc) (ht : NoTiny tol m)
    (hE : Fintype.card E + 1 = Fintype.card ν) (hf : NoLagFwd m) {l k : Nat} (hl : l ≤ lMax) (hk : k ≤ kMax)
    (st0 : p ⊕ z → K) (q0 : z ⊕ ε → K) (h0 : ∀ i, st0 (.inr i) = q0 (.inl i)) (s : Nat) (hs : ¬ BindsAt l k s)
    (r : Rows E H ε) :
    (∑ y, AAc (H := H) m r y * yPath lay c l k q0 (s+1) y) + (∑ y, BBU m lay.hyb r y * yPath lay c l k q0 s y) +
      ∑ y, CCU tol m lay.hyb r y * yLag lay c l k st0 q0 s y = 0 := by
  obtain ⟨M', hS⟩ := hm.eng
  have hs' : s < l ∨ l + k ≤ s := by unfold BindsAt at hs; omega
  have h1 := path_slack hS (sysOf_T12 ho).1 (ho.klein _ _ hm.kl) hl hk q0 s hs'
  rw [sysOf_slack ho] at h1
  have h2 := congrFun h1 r
  rw [mulVec_apply_sum, mulVec_apply_sum] at h2
  have h3 := reduced_row lay hE (AAc (H := H) m r) (BBU m lay.hyb r) (CCU tol m lay.hyb r)
    (fun y hy => AAc_zero ht lay hf hy r) (fun y hy => CCU_zero ht lay.hyb hy r)
    (pPath c l k q0 s) (pPath c l k q0 (s+1)) (qPath c l k q0 s) (qPath c l k q0 (s+1)) (qPath c l k q0 (s+1+1))
    (xPrev c l k st0 q0 s) (xPrev_z l k st0 q0 h0 s)
  unfold yPath yLag xPath
  rw [← h3]
  simp only [PU, MU, neg_mul, Finset.sum_neg_distrib] at h2
  linear_combination -h2

/-- Binding periods. -/
theorem rows_binding (hm : SolvedModel lay orc lMax kMax mod c) (ho : OracleOK lay orc) (ht : NoTiny tol m)
    (hE : Fintype.card E + 1 = Fintype.card ν) (hf : NoLagFwd m) {l k : Nat} (hk : k ≤ kMax)
    (st0 : p ⊕ z → K) (q0 : z ⊕ ε → K) (h0 : ∀ i, st0 (.inr i) = q0 (.inl i)) (s : Nat) (hs : BindsAt l k s)
    (r : Rows E H ε) :
    (∑ y, AAc (H := H) m r y * yPath lay c l k q0 (s+1) y) + (∑ y, BBR m lay.hyb r y * yPath lay c l k q0 s y) +
      (∑ y, CCR tol m lay.hyb r y * yLag lay c l k st0 q0 s y) + gg (H := H) m r = 0 := by
  obtain ⟨M', hS⟩ := hm.eng
  have h1 := path_binding hS (sysOf_T12 ho).2 hk q0 s hs.1 hs.2
  rw [sysOf_binding ho] at h1
  have h2 := congrFun h1 r
  rw [Pi.add_apply, mulVec_apply_sum, mulVec_apply_sum] at h2
  have h3 := reduced_row lay hE (AAc (H := H) m r) (BBR m lay.hyb r) (CCR tol m lay.hyb r)
    (fun y hy => AAc_zero ht lay hf hy r) (fun y hy => CCR_zero ht lay.hyb hy r)
    (pPath c l k q0 s) (pPath c l k q0 (s+1)) (qPath c l k q0 s) (qPath c l k q0 (s+1)) (qPath c l k q0 (s+1+1))
    (xPrev c l k st0 q0 s) (xPrev_z l k st0 q0 h0 s)
  unfold yPath yLag xPath
  rw [← h3]
  simp only [PR, MR, neg_mul, Finset.sum_neg_distrib] at h2
  linear_combination -h2

/-- All rows but the constraint hold in every period. -/
theorem rows_all (hm : SolvedModel lay orc lMax kMax mod c) (ho : OracleOK lay orc) (ht : NoTiny tol m)
    (hE : Fintype.card E + 1 = Fintype.card ν) (hf : NoLagFwd m) {l k : Nat} (hl : l ≤ lMax) (hk : k ≤ kMax)
    (st0 : p ⊕ z → K) (q0 : z ⊕ ε → K) (h0 : ∀ i, st0 (.inr i) = q0 (.inl i)) (s : Nat) (r : (E ⊕ H) ⊕ ε) :
    (∑ y, AA1 (H := H) m r y * yPath lay c l k q0 (s+1) y) + (∑ y, BB1 m lay.hyb r y * yPath lay c l k q0 s y) +
      ∑ y, CC1 tol m lay.hyb r y * yLag lay c l k st0 q0 s y = 0 := by
  by_cases hs : BindsAt l k s
  · have := rows_binding hm ho ht hE hf hk st0 q0 h0 s hs (.inl r)
    simpa only [AAc, BBR, CCR, gg, add_zero] using this
  · exact rows_slack hm ho ht hE hf hl hk st0 q0 h0 s hs (.inl r)

/-- The shock entries of `q` are zero after the period in which the shocks hit. -/
theorem shocks_vanish (hm : SolvedModel lay orc lMax kMax mod c) (ho : OracleOK lay orc) (ht : NoTiny tol m)
    (hE : Fintype.card E + 1 = Fintype.card ν) (hf : NoLagFwd m) {l k : Nat} (hl : l ≤ lMax) (hk : k ≤ kMax)
    (q0 : z ⊕ ε → K) (s : Nat) (e : ε) : qPath c l k q0 (s+1) (.inr e) = 0 := by
  have := rows_all hm ho ht hE hf hl hk (Sum.elim (fun _ => 0) (fun i => q0 (.inl i))) q0 (fun i => rfl) s (.inr e)
  simp only [AA1, CC1, BB1, Fintype.sum_sum_type, zero_mul, Finset.sum_const_zero, zero_add, add_zero, ite_mul, one_mul,
    Finset.sum_ite_eq, Finset.mem_univ, if_true] at this
  exact this

/-- The auxiliary variables carry the value of their variable. -/
theorem aux_eq (hm : SolvedModel lay orc lMax kMax mod c) (ho : OracleOK lay orc) (ht : NoTiny tol m)
    (hE : Fintype.card E + 1 = Fintype.card ν) (hf : NoLagFwd m) {l k : Nat} (hl : l ≤ lMax) (hk : k ≤ kMax)
    (q0 : z ⊕ ε → K) (s : Nat) (h : H) :
    lay.val (xPath c l k q0 s) (.inr h) = lay.val (xPath c l k q0 s) (.inl (lay.hyb h)) := by
  have := rows_all hm ho ht hE hf hl hk (Sum.elim (fun _ => 0) (fun i => q0 (.inl i))) q0 (fun i => rfl) s (.inl (.inr h))
  simp only [AA1, CC1, BB1, Fintype.sum_sum_type, zero_mul, Finset.sum_const_zero, zero_add, add_zero, ite_mul, one_mul,
    Finset.sum_ite_eq, Finset.mem_univ, if_true, neg_mul] at this
  unfold yPath at this
  simp only [yVec] at this
  linear_combination this

/-- value of the lag of each declared variable that the state `st` carries -/
def lagVal (lay : Layout tol m H z p) (st : p ⊕ z → K) (v : ν) : K :=
  if inall tol m v then ∑ h, if lay.hyb h = v then lay.val st (.inr h) else 0 else lay.val st (.inl v)

theorem lagVal_hyb (st : p ⊕ z → K) (h : H) : lagVal lay st (lay.hyb h) = lay.val st (.inr h) := by
  unfold lagVal
  rw [if_pos ((lay.hyb_range _).1 ⟨h, rfl⟩), Finset.sum_eq_single h]
  · simp
  · intro b _ hb; rw [if_neg (fun hh => hb (lay.hyb_inj hh))]
  · intro hh; exact absurd (Finset.mem_univ _) hh

theorem sum_hyb (g : ν → K) (hg : ∀ v, ¬ inall tol m v → g v = 0) (lay : Layout tol m H z p) :
    ∑ h, g (lay.hyb h) = ∑ v, g v := by
  rw [← Finset.sum_image (s := Finset.univ) (g := lay.hyb) (f := g) (fun a _ b _ hab => lay.hyb_inj hab)]
  apply Finset.sum_subset (Finset.subset_univ _)
  intro v _ hv
  apply hg
  intro hi
  obtain ⟨h, rfl⟩ := (lay.hyb_range v).2 hi
  exact hv (Finset.mem_image_of_mem _ (Finset.mem_univ _))

/-- Lagged terms of an equation: the auxiliary variables deliver the lags of the declared variables. -/
theorem sum_CC1 (st : p ⊕ z → K) (e : E) (sh : ε → K) :
    ∑ y, CC1 tol m lay.hyb (.inl (.inl e)) y * yVec lay st sh y =
      (∑ v, m.CC0 e v * lagVal lay st v) + ∑ i, m.DD0 e i * sh i := by
  simp only [Fintype.sum_sum_type, CC1, yVec]
  have h1 : ∑ h, m.CC0 e (lay.hyb h) * lay.val st (.inr h) =
      ∑ v, if inall tol m v then m.CC0 e v * lagVal lay st v else 0 := by
    rw [← sum_hyb (fun v => if inall tol m v then m.CC0 e v * lagVal lay st v else 0) (fun v hv => if_neg hv) lay]
    refine Finset.sum_congr rfl fun h _ => ?_
    rw [if_pos ((lay.hyb_range _).1 ⟨h, rfl⟩), lagVal_hyb]
  rw [h1, ← Finset.sum_add_distrib]
  congr 1
  refine Finset.sum_congr rfl fun v _ => ?_
  by_cases hi : inall tol m v
  · simp [hi]
  · simp [hi, lagVal]

/-- The path of the declared variables. -/
def declPath (lay : Layout tol m H z p) (c : Nat → Nat → Cell (z ⊕ ε) p K) (l k : Nat) (q0 : z ⊕ ε → K) (s : Nat) (v : ν) : K :=
  lay.val (xPath c l k q0 s) (.inl v)

theorem lagVal_prev (hm : SolvedModel lay orc lMax kMax mod c) (ho : OracleOK lay orc) (ht : NoTiny tol m)
    (hE : Fintype.card E + 1 = Fintype.card ν) (hf : NoLagFwd m) {l k : Nat} (hl : l ≤ lMax) (hk : k ≤ kMax)
    (st0 : p ⊕ z → K) (q0 : z ⊕ ε → K) (s : Nat) :
    lagVal lay (xPrev c l k st0 q0 s) = prev (lagVal lay st0) (declPath lay c l k q0) s := by
  cases s with
  | zero => rfl
  | succ s =>
    funext v
    show lagVal lay (xPath c l k q0 s) v = declPath lay c l k q0 s v
    by_cases hi : inall tol m v
    · obtain ⟨h, rfl⟩ := (lay.hyb_range v).2 hi
      rw [lagVal_hyb, aux_eq hm ho ht hE hf hl hk]
      rfl
    · unfold lagVal
      rw [if_neg hi]
      rfl

theorem shocks_prev (hm : SolvedModel lay orc lMax kMax mod c) (ho : OracleOK lay orc) (ht : NoTiny tol m)
    (hE : Fintype.card E + 1 = Fintype.card ν) (hf : NoLagFwd m) {l k : Nat} (hl : l ≤ lMax) (hk : k ≤ kMax)
    (q0 : z ⊕ ε → K) (s : Nat) : (fun e => qPath c l k q0 s (.inr e)) = shockAt (fun e => q0 (.inr e)) s := by
  cases s with
  | zero => rfl
  | succ s => funext e; exact shocks_vanish hm ho ht hE hf hl hk q0 s e

/-- Declared equations along the path. -/
theorem eqs_hold (hm : SolvedModel lay orc lMax kMax mod c) (ho : OracleOK lay orc) (ht : NoTiny tol m)
    (hE : Fintype.card E + 1 = Fintype.card ν) (hf : NoLagFwd m) {l k : Nat} (hl : l ≤ lMax) (hk : k ≤ kMax)
    (st0 : p ⊕ z → K) (q0 : z ⊕ ε → K) (h0 : ∀ i, st0 (.inr i) = q0 (.inl i)) (s : Nat) :
    m.AA0 *ᵥ declPath lay c l k q0 (s+1) + m.BB0 *ᵥ declPath lay c l k q0 s +
      m.CC0 *ᵥ prev (lagVal lay st0) (declPath lay c l k q0) s + m.DD0 *ᵥ shockAt (fun e => q0 (.inr e)) s = 0 := by
  funext e
  have h1 := rows_all hm ho ht hE hf hl hk st0 q0 h0 s (.inl (.inl e))
  have h2 := shocks_prev hm ho ht hE hf hl hk q0 s
  unfold yLag at h1
  rw [h2, sum_CC1, lagVal_prev hm ho ht hE hf hl hk] at h1
  simp only [AA1, BB1, Fintype.sum_sum_type, zero_mul, Finset.sum_const_zero, add_zero] at h1
  simp only [Pi.add_apply, mulVec, dotProduct, Pi.zero_apply]
  unfold yPath at h1
  simp only [yVec] at h1
  have e1 : ∀ s v, lay.val (xPath c l k q0 s) (.inl v) = declPath lay c l k q0 s v := fun _ _ => rfl
  simp only [e1] at h1
  linear_combination h1

/-- The constrained variable equals the bound in binding periods. -/
theorem binding_value (hm : SolvedModel lay orc lMax kMax mod c) (ho : OracleOK lay orc) (ht : NoTiny tol m)
    (hE : Fintype.card E + 1 = Fintype.card ν) (hf : NoLagFwd m) {l k : Nat} (hk : k ≤ kMax)
    (q0 : z ⊕ ε → K) (s : Nat) (hs : BindsAt l k s) : declPath lay c l k q0 s m.cvar = m.xbar := by
  have h1 := rows_binding hm ho ht hE hf hk (Sum.elim (fun _ => 0) (fun i => q0 (.inl i))) q0 (fun i => rfl) s hs (.inr ())
  simp only [AAc, BBR, CCR, gg, Fintype.sum_sum_type, zero_mul, Finset.sum_const_zero, add_zero, zero_add, ite_mul,
    reduceCtorEq, if_false, Sum.inl.injEq, neg_mul, one_mul, Finset.sum_ite_eq', Finset.mem_univ, if_true] at h1
  unfold yPath at h1
  simp only [yVec] at h1
  unfold declPath
  linear_combination -h1

/-- The constraint row in slack periods, as the code builds it. -/
theorem slack_value (hm : SolvedModel lay orc lMax kMax mod c) (ho : OracleOK lay orc) (ht : NoTiny tol m)
    (hE : Fintype.card E + 1 = Fintype.card ν) (hf : NoLagFwd m) {l k : Nat} (hl : l ≤ lMax) (hk : k ≤ kMax)
    (st0 : p ⊕ z → K) (q0 : z ⊕ ε → K) (h0 : ∀ i, st0 (.inr i) = q0 (.inl i)) (s : Nat) (hs : ¬ BindsAt l k s) :
    (∑ v, fbN m v * declPath lay c l k q0 s v) +
      (∑ v, fcY (H := H) m (.inl (.inl v)) * lay.val (xPrev c l k st0 q0 s) (.inl v)) +
      ∑ e, fcY (H := H) m (.inr e) * shockAt (fun e => q0 (.inr e)) s e = 0 := by
  have h1 := rows_slack hm ho ht hE hf hl hk st0 q0 h0 s hs (.inr ())
  have h2 := shocks_prev hm ho ht hE hf hl hk q0 s
  unfold yLag at h1
  rw [h2] at h1
  have hz : ∀ h : H, fcY (ε := ε) (H := H) m (.inl (.inr h)) = 0 := fun h => rfl
  simp only [AAc, BBU, CCU, fbY, hz, Fintype.sum_sum_type, zero_mul, Finset.sum_const_zero, add_zero, zero_add] at h1
  unfold yPath at h1
  simp only [yVec] at h1
  unfold declPath
  linear_combination h1

end Pydsge.GenSys
