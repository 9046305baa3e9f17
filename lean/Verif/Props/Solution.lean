import Verif.Lemmas.Constraint
import Mathlib.Algebra.BigOperators.Field

/-!
# C01, C02, C03, C10, C14, C15: what `t_func` returns solves the declared model
-/

set_option autoImplicit false
set_option linter.unusedSectionVars false

namespace Pydsge

open Matrix Pydsge.Engine Pydsge.Spec Pydsge.Tools Pydsge.GenSys

variable {E ν ε o K : Type} [Fintype E] [Fintype ν] [Fintype ε] [Fintype o]
  [DecidableEq E] [DecidableEq ν] [DecidableEq ε] [Field K] [LinearOrder K] [IsStrictOrderedRing K]
variable {H z p : Type} [DecidableEq H] [Fintype H] [Fintype z] [Fintype p] [DecidableEq z] [DecidableEq p]

/-- The YAML route applied to a declared model. -/
def yaml (D : Declared E ν ε K) (Z0 : Matrix o ν K) (Z1 : o → K) : Input E ν ε o K :=
  Input.ofYaml D.A D.B D.C D.D D.cvar D.rb D.rc D.rd D.xbar Z0 Z1

/-- `set_par` has succeeded: `gen_sys` returned `mod` (for any order of the parallel iterations), with external routines that
do what they promise, no coefficient lost in `fast0`, one equation per variable (the constraint included), and a state
vector that is not empty. -/
structure Succeeded {tol : K} {m : Input E ν ε o K} [DecidablePred (inall tol m)] (lay : Layout tol m H z p)
    (orc : Oracle (Rows E H ε) (z ⊕ ε) p K) (lMax kMax : Nat) (sched : Nat → List Nat) (mod : Model z ε p o K) : Prop where
  gen : genSys lay orc lMax kMax sched = .ok mod
  perm : ∀ l < lMax + 1, (sched l).Perm (List.range (kMax + 1))
  orc : OracleOK lay orc
  noTiny : NoTiny tol m
  square : Fintype.card E + 1 = Fintype.card ν
  states : Nonempty z

/-- The path that `t_func` generates from `st0` and the shocks `eps` (and no shocks afterwards), imposing in period `s` what is
then left of the spell `(l,k)`. -/
def ExpectedPath (mod : Model z ε p o K) (l k : Nat) (st0 : p ⊕ z → K) (eps : ε → K) (X : Nat → p ⊕ z → K) : Prop :=
  ∀ s, ∃ r, tFunc mod (prev st0 X s) (shockAt eps s) (.pair ((elapsed l k s).1 : Int) ((elapsed l k s).2 : Int)) false = .ok r ∧
    X s = r.state

section
variable {tol : K} {m : Input E ν ε o K} [DecidablePred (inall tol m)] {lay : Layout tol m H z p}
  {orc : Oracle (Rows E H ε) (z ⊕ ε) p K} {lMax kMax : Nat} {sched : Nat → List Nat} {mod : Model z ε p o K}
  {c : Nat → Nat → Cell (z ⊕ ε) p K}

theorem q0Of_prev (hm : SolvedModel lay orc lMax kMax mod c) (ho : OracleOK lay orc) (ht : NoTiny tol m)
    (hE : Fintype.card E + 1 = Fintype.card ν) (hf : NoLagFwd m) {l k : Nat} (hl : l ≤ lMax) (hk : k ≤ kMax)
    (st0 : p ⊕ z → K) (eps : ε → K) (s : Nat) :
    q0Of (prev st0 (xPath c l k (q0Of st0 eps)) s) (shockAt eps s) = qPath c l k (q0Of st0 eps) s := by
  cases s with
  | zero => rfl
  | succ s =>
    funext j
    rcases j with i | e
    · rfl
    · exact (shocks_vanish hm ho ht hE hf hl hk (q0Of st0 eps) s e).symm

theorem xPath_loc (c : Nat → Nat → Cell (z ⊕ ε) p K) (l k : Nat) (q0 : z ⊕ ε → K) (s : Nat) :
    xPath c l k q0 s = xPath c (elapsed l k s).1 (elapsed l k s).2 (qPath c l k q0 s) 0 := by
  rw [xPath_zero, elapsed_eq_loc]
  rfl

/-- `ExpectedPath` is the path that the precomputed cells encode. -/
theorem expectedPath_iff (hm : SolvedModel lay orc lMax kMax mod c) (ho : OracleOK lay orc) (ht : NoTiny tol m)
    (hE : Fintype.card E + 1 = Fintype.card ν) (hz : Nonempty z) (hf : NoLagFwd m) {l k : Nat} (hl : l ≤ lMax) (hk : k ≤ kMax)
    (st0 : p ⊕ z → K) (eps : ε → K) (X : Nat → p ⊕ z → K) :
    ExpectedPath mod l k st0 eps X ↔ ∀ s, X s = xPath c l k (q0Of st0 eps) s := by
  have key : ∀ (Y : Nat → p ⊕ z → K) (s : Nat), (∀ s' < s, Y s' = xPath c l k (q0Of st0 eps) s') →
      tFunc mod (prev st0 Y s) (shockAt eps s) (.pair ((elapsed l k s).1 : Int) ((elapsed l k s).2 : Int)) false =
        .ok ⟨xPath c l k (q0Of st0 eps) s, (elapsed l k s).1, (elapsed l k s).2, 0⟩ := by
    intro Y s hY
    have h1 : prev st0 Y s = prev st0 (xPath c l k (q0Of st0 eps)) s := by
      cases s with
      | zero => rfl
      | succ s => exact hY s (by omega)
    rw [h1, tFunc_pair hm _ _ (elapsed_le hl hk s).1 (elapsed_le hl hk s).2, q0Of_prev hm ho ht hE hf hl hk, ← xPath_loc]
  constructor
  · intro h s
    induction s using Nat.strong_induction_on with
    | _ s ih =>
      obtain ⟨r, h1, h2⟩ := h s
      rw [key X s ih] at h1
      cases h1
      exact h2
  · intro h s
    exact ⟨_, key X s (fun s' _ => h s'), h s⟩

/-- **C15**: simulating forward without new shocks while the imposed spell elapses reproduces the expected path of the first
period: the step-by-step path of full states is, period by period, the path `(P, Q)` that iterating the transition on the
enlarged state `q` (states and shocks) from the first period gives; and such a path exists. -/
theorem C15_elapsed_spell_reproduces_expected_path (h : Succeeded lay orc lMax kMax sched mod) (hf : NoLagFwd m) {l k : Nat}
    (hl : l ≤ lMax) (hk : k ≤ kMax) (st0 : p ⊕ z → K) (eps : ε → K) :
    (∃ X, ExpectedPath mod l k st0 eps X) ∧
    ∀ X Q P, ExpectedPath mod l k st0 eps X → SpellPath mod.tables mod.xbar l k Q P → Q 0 = q0Of st0 eps →
      ∀ s, X s = Sum.elim (P s) (fun i => Q (s + 1) (.inl i)) := by
  obtain ⟨c, hm⟩ := genSys_ok h.perm h.gen
  obtain ⟨M', hS⟩ := hm.eng
  refine ⟨⟨_, (expectedPath_iff hm h.orc h.noTiny h.square h.states hf hl hk st0 eps _).2 (fun s => rfl)⟩, ?_⟩
  intro X Q P hX hQP h0 s
  rw [(expectedPath_iff hm h.orc h.noTiny h.square h.states hf hl hk st0 eps X).1 hX s]
  obtain ⟨hQ, hP⟩ := (spellPath_iff hS mod.xbar hl hk Q P).1 hQP
  rw [hP s, hQ (s+1), h0]
  rfl

/-- **C15**, in terms of restarts: from any period on, the path is the expected path of the remaining spell from the state
reached there, without shocks. -/
theorem C15_restart {l k : Nat} {st0 : p ⊕ z → K} {eps : ε → K} {X : Nat → p ⊕ z → K}
    (hX : ExpectedPath mod l k st0 eps X) (t : Nat) :
    ExpectedPath mod (elapsed l k (t + 1)).1 (elapsed l k (t + 1)).2 (X t) 0 (fun s => X (t + 1 + s)) := by
  intro s
  obtain ⟨r, h1, h2⟩ := hX (t + 1 + s)
  refine ⟨r, ?_, h2⟩
  rw [elapsed_add]
  have e1 : prev (X t) (fun s => X (t + 1 + s)) s = prev st0 X (t + 1 + s) := by
    cases s with
    | zero => rfl
    | succ s => rfl
  have e2 : shockAt (0 : ε → K) s = shockAt eps (t + 1 + s) := by
    rw [show t + 1 + s = (t + s) + 1 by omega]
    cases s <;> rfl
  rw [e1, e2]
  exact h1

end

section Yaml
variable {D : Declared E ν ε K} {Z0 : Matrix o ν K} {Z1 : o → K} {tol : K} [DecidablePred (inall tol (yaml D Z0 Z1))]
  {lay : Layout tol (yaml D Z0 Z1) H z p}
  {orc : Oracle (Rows E H ε) (z ⊕ ε) p K} {lMax kMax : Nat} {sched : Nat → List Nat} {mod : Model z ε p o K}

theorem noLagFwd_of_rc (h : D.rc = 0) : NoLagFwd (yaml D Z0 Z1) := by
  intro v hv
  exfalso; apply hv
  show -D.rc v = 0
  rw [h]; simp

theorem fb0_cvar_ne (h : D.rb D.cvar ≠ 1) : (yaml D Z0 Z1).fb0 (yaml D Z0 Z1).cvar ≠ 0 := by
  show (if D.cvar = D.cvar then (1:K) else 0) - D.rb D.cvar ≠ 0
  rw [if_pos rfl]
  exact sub_ne_zero.2 (Ne.symm h)

/-- **C01**: the path that `t_func` generates under an assumed spell satisfies every declared equation in every period, the
constraint equation in every slack period, and has the constrained variable at `x_bar` in every binding period.
The constraint equation may contain current variables and shocks (`rc = 0`, and no shocks if the constrained variable is also
on its right hand side; for lags see C23, C24). -/
theorem C01_expected_paths_solve_declared_model (h : Succeeded lay orc lMax kMax sched mod) (hlag : D.rc = 0)
    (hself : D.rb D.cvar ≠ 1) (hsh : D.rb D.cvar = 0 ∨ D.rd = 0) {l k : Nat} (hl : l ≤ lMax) (hk : k ≤ kMax)
    (st0 : p ⊕ z → K) (eps : ε → K) (X : Nat → p ⊕ z → K) (hX : ExpectedPath mod l k st0 eps X) :
    SolvesUnderSpell D (lagVal lay st0) eps (fun s v => lay.val (X s) (.inl v)) l k := by
  obtain ⟨c, hm⟩ := genSys_ok h.perm h.gen
  have hf := noLagFwd_of_rc (Z0 := Z0) (Z1 := Z1) hlag
  have hXs := (expectedPath_iff hm h.orc h.noTiny h.square h.states hf hl hk st0 eps X).1 hX
  have hx : (fun s v => lay.val (X s) (.inl v)) = declPath lay c l k (q0Of st0 eps) := by
    funext s v; rw [hXs s]; rfl
  rw [hx]
  refine ⟨fun s => ?_, fun s hs => ?_, fun s hs => ?_⟩
  · exact eqs_hold hm h.orc h.noTiny h.square hf hl hk st0 (q0Of st0 eps) (fun i => rfl) s
  · have h1 := slack_value hm h.orc h.noTiny h.square hf hl hk st0 (q0Of st0 eps) (fun i => rfl) s hs
    have hfb := fb0_cvar_ne (Z0 := Z0) (Z1 := Z1) hself
    have e1 : ∀ v, fbN (yaml D Z0 Z1) v = (D.rb v - if v = D.cvar then 1 else 0) / (1 - D.rb D.cvar) := by
      intro v
      show -((if v = D.cvar then (1:K) else 0) - D.rb v) / ((if D.cvar = D.cvar then (1:K) else 0) - D.rb D.cvar) = _
      rw [if_pos rfl, neg_sub]
    have e2 : ∀ v, fcY (H := H) (ε := ε) (yaml D Z0 Z1) (.inl (.inl v)) = 0 := by
      intro v
      show -(-(-D.rc v) / _) = 0
      rw [hlag]; simp
    have e3 : ∀ e, fcY (H := H) (ε := ε) (yaml D Z0 Z1) (.inr e) = D.rd e := by
      intro e
      show -(-D.rd e) = _
      rw [neg_neg]
    have e4 : ∀ s, shockAt (fun e => q0Of st0 eps (.inr e)) s = shockAt eps s := fun s => rfl
    have hd : (1 - D.rb D.cvar) ≠ 0 := sub_ne_zero.2 (Ne.symm hself)
    simp only [e1, e2, e3, e4, zero_mul, Finset.sum_const_zero, add_zero] at h1
    unfold notional
    rw [hlag]
    simp only [dotProduct, Pi.zero_apply, zero_mul, Finset.sum_const_zero, add_zero]
    set x := declPath lay c l k (q0Of st0 eps) s with hxdef
    have e5 : ∑ v, (D.rb v - if v = D.cvar then 1 else 0) / (1 - D.rb D.cvar) * x v =
        ((∑ v, D.rb v * x v) - x D.cvar) / (1 - D.rb D.cvar) := by
      have : ∀ v, (D.rb v - if v = D.cvar then 1 else 0) / (1 - D.rb D.cvar) * x v =
          (D.rb v * x v - if v = D.cvar then x v else 0) / (1 - D.rb D.cvar) := by
        intro v
        split_ifs <;> ring
      simp only [this, ← Finset.sum_div, Finset.sum_sub_distrib, Finset.sum_ite_eq', Finset.mem_univ, if_true]
    rw [e5] at h1
    rcases hsh with hsh | hsh
    · rw [hsh, sub_zero, div_one] at h1
      linear_combination -h1
    · simp only [hsh, Pi.zero_apply, zero_mul, Finset.sum_const_zero, add_zero] at h1 ⊢
      rw [div_eq_zero_iff] at h1
      rcases h1 with h1 | h1
      · linear_combination -h1
      · exact absurd h1 hd
  · exact con_bind hm h.orc hk (q0Of st0 eps) s hs

/-- The value of the constraint expression in the period of the transition, in terms of the declared model. -/
theorem pathValue_declared {c : Nat → Nat → Cell (z ⊕ ε) p K} (h : Succeeded lay orc lMax kMax sched mod)
    (hlag : D.rc = 0) (hself : D.rb D.cvar = 0) {l k : Nat} (st0 : p ⊕ z → K) (eps : ε → K) :
    pathValue (ff lay) c (q0Of st0 eps) l k 0 =
      D.rb ⬝ᵥ (fun v => lay.val (xPath c l k (q0Of st0 eps) 0) (.inl v)) + D.rd ⬝ᵥ eps := by
  have hfb : ∀ v, (if v = D.cvar then (0:K) else fbN (yaml D Z0 Z1) v) = D.rb v := by
    intro v
    by_cases hv : v = D.cvar
    · rw [if_pos hv, hv, hself]
    · rw [if_neg hv]
      show -((if v = D.cvar then (1:K) else 0) - D.rb v) / ((if D.cvar = D.cvar then (1:K) else 0) - D.rb D.cvar) = _
      rw [if_neg hv, if_pos rfl, hself]; simp
  have hfc : ∀ v, fcY (H := H) (ε := ε) (yaml D Z0 Z1) (.inl (.inl v)) = 0 := by
    intro v
    show -(-(-D.rc v) / _) = 0
    rw [hlag]; simp
  have hfd : ∀ e, fcY (H := H) (ε := ε) (yaml D Z0 Z1) (.inr e) = D.rd e := by
    intro e
    show -(-D.rd e) = _
    rw [neg_neg]
  -- coefficients as functions on the stacked vector
  let b : Cols ν H ε → K := fun y => if y = .inl (.inl (yaml D Z0 Z1).cvar) then 0 else fbY (H := H) (yaml D Z0 Z1) y
  have h1 := sum_cols lay h.square (fun y => b y * yVec lay (xPath c l k (q0Of st0 eps) 0)
    (fun e => qPath c l k (q0Of st0 eps) 1 (.inr e)) y)
  have hyq : ∀ j, yVec lay (xPath c l k (q0Of st0 eps) 0) (fun e => qPath c l k (q0Of st0 eps) 1 (.inr e)) (qi lay j) =
      qPath c l k (q0Of st0 eps) 1 j := by
    rintro (i | e)
    · simp only [qi, yVec, lay.val_z]; rfl
    · rfl
  have hyp : ∀ j, yVec lay (xPath c l k (q0Of st0 eps) 0) (fun e => qPath c l k (q0Of st0 eps) 1 (.inr e)) (.inl (lay.pi j)) =
      pPath c l k (q0Of st0 eps) 0 j := by
    intro j; simp only [yVec, lay.val_p]; rfl
  simp only [hyq, hyp] at h1
  have hbq : ∀ j, b (qi lay j) = (ff lay).fq1 j := fun j => rfl
  have hbp : ∀ j, b (.inl (lay.pi j)) = (ff lay).fp1 j := by
    intro j
    simp only [b, ff, Sum.inl.injEq]
  simp only [hbq, hbp] at h1
  have h2 : ∑ y, b y * yVec lay (xPath c l k (q0Of st0 eps) 0) (fun e => qPath c l k (q0Of st0 eps) 1 (.inr e)) y =
      ∑ v, D.rb v * lay.val (xPath c l k (q0Of st0 eps) 0) (.inl v) := by
    simp only [Fintype.sum_sum_type, b, fbY, Sum.inl.injEq, reduceCtorEq, if_false, zero_mul, Finset.sum_const_zero, add_zero, yVec]
    refine Finset.sum_congr rfl fun v _ => ?_
    rw [← hfb v]; rfl
  rw [h2] at h1
  have h3 : (ff lay).fq0 ⬝ᵥ qPath c l k (q0Of st0 eps) 0 = D.rd ⬝ᵥ eps := by
    simp only [dotProduct, Fintype.sum_sum_type, ff, qi]
    have hz : ∀ i, fcY (H := H) (ε := ε) (yaml D Z0 Z1) (.inl (lay.zi i)) = 0 := by
      intro i
      rcases lay.zi i with v | a
      · exact hfc v
      · rfl
    simp only [hz, hfd, zero_mul, Finset.sum_const_zero, zero_add]
    rfl
  unfold pathValue
  rw [h3]
  simp only [dotProduct] at h1 ⊢
  linear_combination -h1

/-- **C03**: if `t_func` returns flag 0, the constrained variable in the new state is the maximum of `x_bar` and the value of
the right hand side of the constraint equation in the same new state. -/
theorem C03_flag_zero_is_max (h : Succeeded lay orc lMax kMax sched mod) (hk1 : 1 ≤ kMax) (hlag : D.rc = 0)
    (hself : D.rb D.cvar = 0) (st : p ⊕ z → K) (eps : ε → K) (r : Step z p K)
    (hr : tFunc mod st eps .none false = .ok r) (hflag : r.flag = 0) :
    lay.val r.state (.inl D.cvar) =
      max D.xbar (D.rb ⬝ᵥ (fun v => lay.val r.state (.inl v)) + D.rd ⬝ᵥ eps) := by
  obtain ⟨c, hm⟩ := genSys_ok h.perm h.gen
  obtain ⟨M', hS⟩ := hm.eng
  have := h.states
  obtain ⟨l, k, flag, hf, hl, hk, hcase⟩ := findLk_cases (xbar := mod.xbar) (checkCnst_reads hS (q0Of st eps)) (by omega) (by omega)
  rw [tFunc_find hm st eps hf (by omega) (by omega)] at hr
  cases hr
  have hfb := fb0_cvar_ne (Z0 := Z0) (Z1 := Z1) (show D.rb D.cvar ≠ 1 by rw [hself]; exact zero_ne_one)
  simp only at hflag ⊢
  rw [← pathValue_declared h hlag hself st eps]
  have hxb : mod.xbar = D.xbar := hm.xbar
  have hslack := con_slack hm h.orc hfb (show l ≤ lMax by omega) (show k ≤ kMax by omega) (q0Of st eps) 0
  have hbind := con_bind (l := l) hm h.orc (show k ≤ kMax by omega) (q0Of st eps) 0
  have hd : lay.val (xPath c l k (q0Of st eps) 0) (.inl D.cvar) = declPath lay c l k (q0Of st eps) 0 (yaml D Z0 Z1).cvar := rfl
  rw [hd]
  rcases hcase with ⟨h1, h2, h3, h4⟩ | ⟨h1, h2⟩ | ⟨h1, h2, h3⟩
  · subst h1 h2
    rw [hslack (by unfold BindsAt; omega)]
    have := h4 0 (by omega)
    simp only [slotPeriod] at this
    rw [hxb] at this
    exact (max_eq_right this.le).symm
  · by_cases hl0 : l = 0
    · subst hl0
      rw [hbind ⟨le_rfl, by have := h2.binds; omega⟩]
      have := h2.first
      simp only [slotPeriod] at this
      rw [hxb] at this
      exact (max_eq_left this).symm
    · rw [hslack (by unfold BindsAt; omega)]
      have := h2.start (by omega)
      simp only [slotPeriod] at this
      rw [hxb] at this
      exact (max_eq_right this).symm
  · exact absurd hflag h3

end Yaml

section
variable {tol : K} {m : Input E ν ε o K} [DecidablePred (inall tol m)] {lay : Layout tol m H z p}
  {orc : Oracle (Rows E H ε) (z ⊕ ε) p K} {lMax kMax : Nat} {sched : Nat → List Nat} {mod : Model z ε p o K}

/-- **C02**: after any nonlinear `t_func` step with endogenously determined `(l,k)`, whatever flag it returns, the
constrained variable in the new state is at least `x_bar`. -/
theorem C02_never_below_bound (h : Succeeded lay orc lMax kMax sched mod) (hk1 : 1 ≤ kMax) (hfb : m.fb0 m.cvar ≠ 0)
    (st : p ⊕ z → K) (eps : ε → K) :
    ∃ r, tFunc mod st eps .none false = .ok r ∧ m.xbar ≤ lay.val r.state (.inl m.cvar) := by
  obtain ⟨c, hm⟩ := genSys_ok h.perm h.gen
  obtain ⟨M', hS⟩ := hm.eng
  have := h.states
  obtain ⟨l, k, flag, hf, hl, hk, hcase⟩ := findLk_cases (xbar := mod.xbar) (checkCnst_reads hS (q0Of st eps)) (by omega) (by omega)
  refine ⟨_, tFunc_find hm st eps hf (by omega) (by omega), ?_⟩
  simp only
  have hslack := con_slack hm h.orc hfb (show l ≤ lMax by omega) (show k ≤ kMax by omega) (q0Of st eps) 0
  have hbind := con_bind (l := l) hm h.orc (show k ≤ kMax by omega) (q0Of st eps) 0
  have hd : lay.val (xPath c l k (q0Of st eps) 0) (.inl m.cvar) = declPath lay c l k (q0Of st eps) 0 m.cvar := rfl
  rw [hd]
  rcases hcase with ⟨h1, h2, h3, h4⟩ | ⟨h1, h2⟩ | ⟨h1, h2, h3⟩
  · subst h1 h2
    rw [hslack (by unfold BindsAt; omega), ← hm.xbar]
    have := h4 0 (by omega)
    simp only [slotPeriod] at this
    exact this.le
  · by_cases hl0 : l = 0
    · subst hl0
      rw [hbind ⟨le_rfl, by have := h2.binds; omega⟩]
    · rw [hslack (by unfold BindsAt; omega), ← hm.xbar]
      have := h2.start (by omega)
      simp only [slotPeriod] at this
      exact this
  · subst h1
    rw [hbind ⟨le_rfl, by omega⟩]

/-- **C14**: imposing the equilibrium that was found changes nothing (for every flag, hence in particular for flag 0). -/
theorem C14_impose_found_equilibrium (h : Succeeded lay orc lMax kMax sched mod) (hk1 : 1 ≤ kMax)
    (st : p ⊕ z → K) (eps : ε → K) (r : Step z p K) (hr : tFunc mod st eps .none false = .ok r) :
    ∃ r', tFunc mod st eps (.pair r.l r.k) false = .ok r' ∧ r'.state = r.state ∧ r'.l = r.l ∧ r'.k = r.k := by
  obtain ⟨c, hm⟩ := genSys_ok h.perm h.gen
  obtain ⟨M', hS⟩ := hm.eng
  have := h.states
  obtain ⟨l, k, flag, hf, hl, hk, hcase⟩ := findLk_cases (xbar := mod.xbar) (checkCnst_reads hS (q0Of st eps)) (by omega) (by omega)
  rw [tFunc_find hm st eps hf (by omega) (by omega)] at hr
  cases hr
  exact ⟨_, tFunc_pair hm st eps (Nat.le_of_lt_succ hl) (Nat.le_of_lt_succ hk), rfl, rfl, rfl⟩

end
end Pydsge
