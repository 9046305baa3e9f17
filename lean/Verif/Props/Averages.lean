import Verif.Props.CompareEx
import Verif.Props.Stability
import Verif.Props.Scale

/-!
# C189: averages of paths with the constraint are worse than the path of averages
-/

set_option autoImplicit false
set_option linter.unusedSectionVars false
set_option linter.unusedSimpArgs false

namespace Pydsge

open Matrix Pydsge.Engine Pydsge.Spec Pydsge.Tools Pydsge.GenSys

variable {E ν ε o K : Type} [Fintype E] [Fintype ν] [Fintype ε] [Fintype o]
  [DecidableEq E] [DecidableEq ν] [DecidableEq ε] [Field K] [LinearOrder K] [IsStrictOrderedRing K]
variable {H z p : Type} [DecidableEq H] [Fintype H] [Fintype z] [Fintype p] [DecidableEq z] [DecidableEq p]
section Yaml
variable {D : Declared E ν ε K} {Z0 : Matrix o ν K} {Z1 : o → K} {tol : K} [DecidablePred (inall tol (yaml D Z0 Z1))]
  {lay : Layout tol (yaml D Z0 Z1) H z p}
  {orc : Oracle (Rows E H ε) (z ⊕ ε) p K} {lMax kMax : Nat} {sched : Nat → List Nat} {mod : Model z ε p o K}

theorem val_weighted (lay : Layout tol (yaml D Z0 Z1) H z p) {ι : Type} (S : Finset ι) (a : ι → K) (st : ι → p ⊕ z → K) (w : ν ⊕ H) :
    lay.val (∑ i ∈ S, a i • st i) w = ∑ i ∈ S, a i * lay.val (st i) w := by
  classical
  induction S using Finset.induction_on with
  | empty =>
    rw [Finset.sum_empty, Finset.sum_empty]
    have := val_smul lay (0 : K) (0 : p ⊕ z → K) w
    rwa [zero_smul, zero_mul] at this
  | insert i S hi ih =>
    rw [Finset.sum_insert hi, Finset.sum_insert hi, ← ih]
    have := val_sub lay (a i • st i) ((-1 : K) • ∑ i ∈ S, a i • st i) w
    rw [val_smul, val_smul] at this
    have e : a i • st i - (-1 : K) • ∑ i ∈ S, a i • st i = a i • st i + ∑ i ∈ S, a i • st i := by
      rw [neg_one_smul, sub_neg_eq_add]
    rw [e] at this
    rw [this]
    ring

section
variable (h : Succeeded lay orc lMax kMax sched mod) (hlag : Spec.LagsNotExpected D) (hself : D.rb D.cvar ≠ 1)
include h hlag hself

variable (hP : Spec.NoReversalOf lay mod)
include hP

theorem announced_sum {ι : Type} (S : Finset ι) (a : ι → K) {d : ι → Nat → ν → K} {w : ι → Nat → K}
    (hd : ∀ i ∈ S, Spec.AnnouncedResponse lay mod (d i) (w i)) :
    Spec.AnnouncedResponse lay mod (fun s v => ∑ i ∈ S, a i * d i s v) (fun s => ∑ i ∈ S, a i * w i s) := by
  classical
  induction S using Finset.induction_on with
  | empty =>
    obtain ⟨d0, hd0, -⟩ := announced_exists_unique h hlag hself hP (n := 0) (w := fun _ => 0) fun _ _ => rfl
    have := announced_comb h hlag hself hP hd0 hd0 (-1)
    simpa using this
  | insert i S hi ih =>
    have := announced_comb h hlag hself hP (ih fun j hj => hd j (Finset.mem_insert_of_mem hj)) (hd i (Finset.mem_insert_self i S)) (a i)
    simp only [Finset.sum_insert hi]
    simpa only [add_comm] using this

/-- **C189.** Let announced disturbances not reverse, and announced increases of the constrained variable not raise it in other periods. Of all
announced increases that keep the constrained variable at or above its bound, what the constraint adds in equilibrium is the smallest, in every
period. -/
theorem C189_least (hZ : Spec.LowersElsewhere lay mod) {st : p ⊕ z → K} {e : ε → K} {x : Nat → ν → K}
    (hx : Spec.EndsInEquilibrium lay mod st e x) {Y : Nat → p ⊕ z → K} (hY : ExpectedPath mod 0 0 st e Y) {d : Nat → ν → K} {w : Nat → K}
    (hd : Spec.AnnouncedResponse lay mod d w) (hw : ∀ s, 0 ≤ w s) (hb : ∀ s, D.xbar ≤ lay.val (Y s) (.inl D.cvar) + d s D.cvar) (s : Nat) :
    Spec.lift D (lagVal lay st) e x s ≤ w s := by
  have hd' := lift_response h hlag hself hx hY
  have b0 := fun s => bound_of_lift hx.equilibrium (s := s)
  generalize Spec.lift D (lagVal lay st) e x = w' at *
  obtain ⟨n, hn⟩ := announced_ends h hlag hself hd
  obtain ⟨n', hn'⟩ := announced_ends h hlag hself hd'
  have h1 := announced_comb h hlag hself hP hd' hd (-1)
  obtain ⟨dm, hdm, -⟩ := announced_exists_unique h hlag hself hP (n := max n n') (w := fun s => max (w s - w' s) 0) fun s hs => by
    rw [hn s ((le_max_left _ _).trans hs), hn' s ((le_max_right _ _).trans hs), sub_self, max_self]
  have h2 := announced_comb h hlag hself hP h1 hdm 1
  obtain ⟨n2, hn2⟩ := h2.ends
  have hpos : ∀ s, w' s + -1 * w s + 1 * max (w s - w' s) 0 = max (w' s - w s) 0 := by
    intro s
    rcases le_total (w s) (w' s) with g | g
    · rw [max_eq_right (sub_nonpos.2 g), max_eq_left (sub_nonneg.2 g)]
      ring
    · rw [max_eq_left (sub_nonneg.2 g), max_eq_right (sub_nonpos.2 g)]
      ring
  have h0 := hP _ _ n2 h2.eqs h2.rule hn2 fun s => by
    rw [hpos]
    rcases le_total (w' s) (w s) with g | g
    · rw [max_eq_right (sub_nonpos.2 g), zero_mul]
    · rw [max_eq_left (sub_nonneg.2 g)]
      rcases eq_or_lt_of_le g with g' | g'
      · rw [g', sub_self, zero_mul]
      · refine mul_nonpos_of_nonneg_of_nonpos (sub_nonneg.2 g) ?_
        have a1 := hZ dm _ s hdm (fun s => le_max_right _ _) (max_eq_right (sub_nonpos.2 g))
        have a2 := b0 s ((hw s).trans_lt g')
        have a3 := hb s
        simp only [Pi.sub_apply, Spec.declared]
        linarith
  have h3 := h2.rule s
  rw [h0, hpos] at h3
  have e0 : Spec.ruleAt (Spec.asSolved D) 0 0 (0 : Nat → ν → K) s = 0 := by
    have := ruleAt_sub (Spec.asSolved D) 0 0 (0 : Nat → ν → K) 0 s
    rw [sub_self] at this
    rw [← this]
    congr 1
    funext s
    simp
  rw [e0, zero_add] at h3
  have h4 : max (w' s - w s) 0 = 0 := h3.symm.trans (congrFun (congrFun h0 s) D.cvar)
  have := le_max_left (w' s - w s) 0
  rw [h4] at this
  exact sub_nonpos.1 this

theorem above_bound {xlag : ν → K} {eps : ε → K} {x : Nat → ν → K} (hx : Spec.RuleEquilibrium (Spec.asSolved D) xlag eps x) (s : Nat) :
    D.xbar ≤ x s D.cvar := by
  have h : x s D.cvar = max D.xbar _ := hx.con s
  rw [h]
  exact le_max_left _ _

section
variable {ι : Type} {S : Finset ι} {a : ι → K} (ha : ∀ i ∈ S, 0 ≤ a i) (h1 : ∑ i ∈ S, a i = 1)
  {st : ι → p ⊕ z → K} {e : ι → ε → K} {x : ι → Nat → ν → K} {Y : ι → Nat → p ⊕ z → K}
  (hx : ∀ i ∈ S, Spec.EndsInEquilibrium lay mod (st i) (e i) (x i)) (hY : ∀ i ∈ S, ExpectedPath mod 0 0 (st i) (e i) (Y i))
  {st0 : p ⊕ z → K} {e0 : ε → K} {x0 : Nat → ν → K} {Y0 : Nat → p ⊕ z → K}
  (hx0 : Spec.EndsInEquilibrium lay mod st0 e0 x0) (hY0 : ExpectedPath mod 0 0 st0 e0 Y0)
  (hc : ∀ s, ∑ i ∈ S, a i * lay.val (Y i s) (.inl D.cvar) ≤ lay.val (Y0 s) (.inl D.cvar))
include ha h1 hx hY hx0 hY0 hc

/-- **C189.** What the constraint adds is convex: on a linear path that is nowhere below a weighted average of linear paths, it adds in every period
at most the weighted average of what it adds on these. -/
theorem C189_lift (hZ : Spec.LowersElsewhere lay mod) (s : Nat) :
    Spec.lift D (lagVal lay st0) e0 x0 s ≤ ∑ i ∈ S, a i * Spec.lift D (lagVal lay (st i)) (e i) (x i) s := by
  refine C189_least h hlag hself hP hZ hx0 hY0
    (announced_sum h hlag hself hP S a fun i hi => lift_response h hlag hself (hx i hi) (hY i hi))
    (fun s => Finset.sum_nonneg fun i hi => mul_nonneg (ha i hi) (lift_nonneg (hx i hi).equilibrium s)) (fun s => ?_) s
  have e2 : D.xbar ≤ ∑ i ∈ S, a i * x i s D.cvar := by
    calc D.xbar = ∑ i ∈ S, a i * D.xbar := by rw [← Finset.sum_mul, h1, one_mul]
      _ ≤ _ := Finset.sum_le_sum fun i hi => mul_le_mul_of_nonneg_left (above_bound h hlag hself hP (hx i hi).equilibrium s) (ha i hi)
  have e3 := hc s
  have e4 : ∑ i ∈ S, a i * (x i s - Spec.declared lay (Y i) s) D.cvar =
      ∑ i ∈ S, a i * x i s D.cvar - ∑ i ∈ S, a i * lay.val (Y i s) (.inl D.cvar) := by
    rw [← Finset.sum_sub_distrib]
    refine Finset.sum_congr rfl fun i _ => ?_
    rw [Pi.sub_apply]
    exact mul_sub _ _ _
  rw [e4]
  linarith

/-- **C189.** Then every variable that announced increases of the constrained variable lower, and that is not below the average on the linear path, is
not below the average in equilibrium; and the other way round for variables that they raise. -/
theorem C189_order (hZ : Spec.LowersElsewhere lay mod) (v : ν) (t : Nat) :
    (Spec.Lowers lay mod v t → ∑ i ∈ S, a i * lay.val (Y i t) (.inl v) ≤ lay.val (Y0 t) (.inl v) → ∑ i ∈ S, a i * x i t v ≤ x0 t v) ∧
    (Spec.Raises lay mod v t → lay.val (Y0 t) (.inl v) ≤ ∑ i ∈ S, a i * lay.val (Y i t) (.inl v) → x0 t v ≤ ∑ i ∈ S, a i * x i t v) := by
  have hw := C189_lift h hlag hself hP ha h1 hx hY hx0 hY0 hc hZ
  have h2 := announced_comb h hlag hself hP
    (announced_sum h hlag hself hP S a fun i hi => lift_response h hlag hself (hx i hi) (hY i hi)) (lift_response h hlag hself hx0 hY0) (-1)
  have hpos := fun s => show 0 ≤ (∑ i ∈ S, a i * Spec.lift D (lagVal lay (st i)) (e i) (x i) s) + -1 * Spec.lift D (lagVal lay st0) e0 x0 s by
    have := hw s
    linarith
  have e4 : ∑ i ∈ S, a i * (x i t - Spec.declared lay (Y i) t) v =
      ∑ i ∈ S, a i * x i t v - ∑ i ∈ S, a i * lay.val (Y i t) (.inl v) := by
    rw [← Finset.sum_sub_distrib]
    refine Finset.sum_congr rfl fun i _ => ?_
    rw [Pi.sub_apply]
    exact mul_sub _ _ _
  refine ⟨fun hv hy => ?_, fun hv hy => ?_⟩
  · have := hv _ _ h2 hpos
    rw [e4] at this
    simp only [Pi.sub_apply, Spec.declared] at this
    linarith
  · have := hv _ _ h2 hpos
    rw [e4] at this
    simp only [Pi.sub_apply, Spec.declared] at this
    linarith

end

/-- **C189.** Larger disturbances: if the linear path is `c ≥ 1` times another one, the constraint adds at least `c` times as much in every period, and its
effect on variables that announced increases lower (raise) is at most (at least) `c` times as high. -/
theorem C189_scale (hZ : Spec.LowersElsewhere lay mod) (hb : D.xbar ≤ 0) {c : K} (hc : 1 ≤ c) {st st' : p ⊕ z → K} {e e' : ε → K} {x x' : Nat → ν → K}
    (hx : Spec.EndsInEquilibrium lay mod st e x) (hx' : Spec.EndsInEquilibrium lay mod st' e' x') {Y Y' : Nat → p ⊕ z → K}
    (hY : ExpectedPath mod 0 0 st e Y) (hY' : ExpectedPath mod 0 0 st' e' Y') (hs : ∀ s, Y' s = c • Y s) (s : Nat) :
    c * Spec.lift D (lagVal lay st) e x s ≤ Spec.lift D (lagVal lay st') e' x' s ∧
    ∀ v, (Spec.Lowers lay mod v s → x' s v - lay.val (Y' s) (.inl v) ≤ c * (x s v - lay.val (Y s) (.inl v))) ∧
      (Spec.Raises lay mod v s → c * (x s v - lay.val (Y s) (.inl v)) ≤ x' s v - lay.val (Y' s) (.inl v)) := by
  have c0 : 0 < c := lt_of_lt_of_le one_pos hc
  have hd := lift_response h hlag hself hx hY
  have hd' := lift_response h hlag hself hx' hY'
  have key : ∀ s, c * Spec.lift D (lagVal lay st) e x s ≤ Spec.lift D (lagVal lay st') e' x' s := by
    intro s
    have h1 := announced_sum h hlag hself hP (Finset.univ : Finset (Fin 1)) (fun _ => c⁻¹) fun _ _ => hd'
    have := C189_least h hlag hself hP hZ hx hY h1
      (fun s => Finset.sum_nonneg fun i hi => mul_nonneg (inv_nonneg.2 c0.le) (lift_nonneg hx'.equilibrium s)) (fun s => ?_) s
    · simp only [Finset.univ_unique, Finset.sum_singleton] at this
      calc c * Spec.lift D (lagVal lay st) e x s ≤ c * (c⁻¹ * Spec.lift D (lagVal lay st') e' x' s) := mul_le_mul_of_nonneg_left this c0.le
        _ = _ := mul_inv_cancel_left₀ c0.ne' _
    · have g := above_bound h hlag hself hP hx'.equilibrium s
      simp only [Finset.univ_unique, Finset.sum_singleton, Pi.sub_apply, Spec.declared, hs, val_smul]
      have e1 : c⁻¹ * (x' s D.cvar - c * lay.val (Y s) (.inl D.cvar)) = c⁻¹ * x' s D.cvar - lay.val (Y s) (.inl D.cvar) := by
        rw [mul_sub, inv_mul_cancel_left₀ c0.ne']
      rw [e1]
      have e2 : D.xbar ≤ c⁻¹ * D.xbar := by
        have := mul_le_mul_of_nonpos_right (inv_le_one_of_one_le₀ hc) hb
        rwa [one_mul] at this
      have e3 := mul_le_mul_of_nonneg_left g (inv_nonneg.2 c0.le)
      linarith
  refine ⟨key s, fun v => ?_⟩
  have h1 := announced_comb h hlag hself hP hd' hd (-c)
  have hpos := fun s => show 0 ≤ Spec.lift D (lagVal lay st') e' x' s + -c * Spec.lift D (lagVal lay st) e x s by
    have := key s
    linarith
  refine ⟨fun hv => ?_, fun hv => ?_⟩
  · have := hv _ _ h1 hpos
    simp only [Pi.sub_apply, Spec.declared] at this
    linarith
  · have := hv _ _ h1 hpos
    simp only [Pi.sub_apply, Spec.declared] at this
    linarith

end

/-! ## Transitions and simulations -/

section
variable (h : Succeeded lay orc lMax kMax sched mod)
include h

/-- Linear transitions of averages. -/
theorem linear_weighted {ι : Type} (S : Finset ι) (a : ι → K) {st : ι → p ⊕ z → K} {e : ι → ε → K} {r : ι → Step z p K}
    (hr : ∀ i ∈ S, tFunc mod (st i) (e i) .none true = .ok (r i)) {r0 : Step z p K}
    (h0 : tFunc mod (∑ i ∈ S, a i • st i) (∑ i ∈ S, a i • e i) .none true = .ok r0) : r0.state = ∑ i ∈ S, a i • (r i).state := by
  have hq : q0Of (∑ i ∈ S, a i • st i) (∑ i ∈ S, a i • e i) = ∑ i ∈ S, a i • q0Of (st i) (e i) := by
    funext j
    rcases j with j | j <;> simp [q0Of, Finset.sum_apply]
  have g0 := Except.ok.inj (h0.symm.trans (tFunc_linear_eq h _ _))
  have gi : ∀ i ∈ S, (r i).state = Sum.elim (mod.omg *ᵥ q0Of (st i) (e i)) (fun j => (mod.lam *ᵥ q0Of (st i) (e i)) (.inl j)) := fun i hi => by
    rw [Except.ok.inj ((hr i hi).symm.trans (tFunc_linear_eq h _ _))]
  have gs : ∑ i ∈ S, a i • (r i).state =
      ∑ i ∈ S, a i • Sum.elim (mod.omg *ᵥ q0Of (st i) (e i)) (fun j => (mod.lam *ᵥ q0Of (st i) (e i)) (.inl j)) :=
    Finset.sum_congr rfl fun i hi => by rw [gi i hi]
  rw [g0, gs]
  simp only [hq, Matrix.mulVec_sum, Matrix.mulVec_smul]
  funext j
  rcases j with j | j <;> simp [Finset.sum_apply]

/-- Linear paths of averages. -/
theorem linearPath_weighted {ι : Type} (S : Finset ι) (a : ι → K) {st : ι → p ⊕ z → K} {e : ι → ε → K} {Y : ι → Nat → p ⊕ z → K}
    (hY : ∀ i ∈ S, ExpectedPath mod 0 0 (st i) (e i) (Y i)) :
    ExpectedPath mod 0 0 (∑ i ∈ S, a i • st i) (∑ i ∈ S, a i • e i) (fun s => ∑ i ∈ S, a i • Y i s) := by
  have hel : ∀ t, elapsed 0 0 t = (0, 0) := by
    intro t
    unfold elapsed
    split_ifs <;> simp
  intro s
  rw [hel]
  have lin : ∀ st e, tFunc mod st e (.pair ((0, 0) : Nat × Nat).1 ((0, 0) : Nat × Nat).2) false = tFunc mod st e .none true :=
    fun st e => (Pydsge.tFunc_linear mod st e).symm
  have hY' := fun i (hi : i ∈ S) => hY i hi s
  simp only [hel, lin] at hY'
  rw [lin]
  haveI : Nonempty (Step z p K) := ⟨⟨0, 0, 0, 0⟩⟩
  choose! r g1 g2 using hY'
  rcases s with _ | s
  · refine ⟨_, tFunc_linear_eq h _ _, ?_⟩
    exact (Finset.sum_congr rfl fun i hi => by rw [g2 i hi]).trans (linear_weighted h S a g1 (tFunc_linear_eq h _ _)).symm
  · have e0 : (0 : ε → K) = ∑ i ∈ S, a i • (0 : ε → K) := by simp
    refine ⟨_, tFunc_linear_eq h _ _, ?_⟩
    have := linear_weighted h S a (st := fun i => Y i s) (e := fun _ => 0) g1 (tFunc_linear_eq h _ _)
    simp only [smul_zero, Finset.sum_const_zero] at this
    exact (Finset.sum_congr rfl fun i hi => by rw [g2 i hi]).trans this.symm

/-- If the linear model keeps the order without shocks, it does so with the same shocks in both places. -/
theorem linearOrders_same {lo up : ν → Prop} (h0 : Spec.LinearOrders lay mod lo up 0 0) (e : ε → K) : Spec.LinearOrders lay mod lo up e e := by
  intro st st' r r' ho hr hr'
  have e1 := Except.ok.inj (hr.symm.trans (tFunc_linear_eq h st e))
  have e2 := Except.ok.inj (hr'.symm.trans (tFunc_linear_eq h st' e))
  have hq : q0Of st' e - q0Of st e = q0Of st' 0 - q0Of st 0 := by
    funext j
    rcases j with j | j <;> simp [q0Of]
  obtain ⟨g1, g2⟩ := h0 st st' _ _ ho (tFunc_linear_eq h st 0) (tFunc_linear_eq h st' 0)
  have hd : r'.state - r.state = Sum.elim (mod.omg *ᵥ q0Of st' 0) (fun j => (mod.lam *ᵥ q0Of st' 0) (.inl j)) -
      Sum.elim (mod.omg *ᵥ q0Of st 0) (fun j => (mod.lam *ᵥ q0Of st 0) (.inl j)) := by
    rw [e1, e2]
    have q1 : mod.omg *ᵥ q0Of st' e - mod.omg *ᵥ q0Of st e = mod.omg *ᵥ q0Of st' 0 - mod.omg *ᵥ q0Of st 0 := by
      rw [← Matrix.mulVec_sub, hq, Matrix.mulVec_sub]
    have q2 : mod.lam *ᵥ q0Of st' e - mod.lam *ᵥ q0Of st e = mod.lam *ᵥ q0Of st' 0 - mod.lam *ᵥ q0Of st 0 := by
      rw [← Matrix.mulVec_sub, hq, Matrix.mulVec_sub]
    funext j
    rcases j with j | j
    · exact congrFun q1 j
    · exact congrFun q2 (.inl j)
  have hv : ∀ v, lay.val r'.state (.inl v) - lay.val r.state (.inl v) =
      lay.val (Sum.elim (mod.omg *ᵥ q0Of st' 0) (fun j => (mod.lam *ᵥ q0Of st' 0) (.inl j))) (.inl v) -
      lay.val (Sum.elim (mod.omg *ᵥ q0Of st 0) (fun j => (mod.lam *ᵥ q0Of st 0) (.inl j))) (.inl v) := fun v => by
    rw [← val_sub, hd, val_sub]
  refine ⟨⟨fun v hl => ?_, fun v hl => ?_⟩, ?_⟩
  · have a1 := g1.1 v hl
    have a2 := hv v
    simp only at a1
    linarith
  · have a1 := g1.2 v hl
    have a2 := hv v
    simp only at a1
    linarith
  · have a2 := hv D.cvar
    simp only at g2
    linarith

end

section
variable (h : Succeeded lay orc lMax kMax sched mod) (hk1 : 1 ≤ kMax) (hlag : Spec.LagsNotExpected D) (hself : D.rb D.cvar ≠ 1)
  (hP : Spec.NoReversalOf lay mod) (hZ : Spec.LowersElsewhere lay mod)
  {lo up : ν → Prop} (hlo : ∀ v, lo v → Spec.Lowers lay mod v 0) (hup : ∀ v, up v → Spec.Raises lay mod v 0)
  (h0 : Spec.LinearOrders lay mod lo up 0 0) (hF : Spec.FlagMeansEquilibrium lay mod)
  {ι : Type} {S : Finset ι} {a : ι → K} (ha : ∀ i ∈ S, 0 ≤ a i) (h1 : ∑ i ∈ S, a i = 1)
include h hk1 hlag hself hP hZ hlo hup h0 hF ha h1

/-- **C189.** One transition from a state at least as good as an average, with shocks at least as good as the average: the result is at least as good
as the average of the results. -/
theorem C189_transition {st : ι → p ⊕ z → K} {e : ι → ε → K} {st0 : p ⊕ z → K} {e0 : ε → K}
    (ho : Spec.OrderedBy lay lo up (∑ i ∈ S, a i • st i) st0) (he : Spec.LinearOrders lay mod lo up (∑ i ∈ S, a i • e i) e0)
    {r : ι → Step z p K} {r0 : Step z p K} (hr : ∀ i ∈ S, tFunc mod (st i) (e i) .none false = .ok (r i)) (hf : ∀ i ∈ S, (r i).flag = 0)
    (hr0 : tFunc mod st0 e0 .none false = .ok r0) (hf0 : r0.flag = 0) :
    Spec.OrderedBy lay lo up (∑ i ∈ S, a i • (r i).state) r0.state := by
  obtain ⟨c, hm⟩ := genSys_ok h.perm h.gen
  have hz := h.states
  have hi := fun i (hi : i ∈ S) => transition_equilibrium h hk1 hlag hself hF (hr i hi) (hf i hi)
  choose! x hx hxv using hi
  obtain ⟨x0, hx0, hxv0⟩ := transition_equilibrium h hk1 hlag hself hF hr0 hf0
  have hl := fun i => linear_expectedPath hm (st i) (e i)
  choose Y hY using hl
  obtain ⟨Y0, hY0⟩ := linear_expectedPath hm st0 e0
  have hord := linear_ordered h h0 ho he (linearPath_weighted h S a fun i _ => hY i) hY0
  have hc : ∀ s, ∑ i ∈ S, a i * lay.val (Y i s) (.inl D.cvar) ≤ lay.val (Y0 s) (.inl D.cvar) := fun s => by
    rw [← val_weighted]
    exact (hord s).2
  have key := fun v => C189_order h hlag hself hP ha h1 hx (fun i _ => hY i) hx0 hY0 hc hZ v 0
  have hav : ∀ v, lay.val (∑ i ∈ S, a i • (r i).state) (.inl v) = ∑ i ∈ S, a i * x i 0 v := fun v => by
    rw [val_weighted]
    exact Finset.sum_congr rfl fun i hi => by rw [hxv i hi]
  refine ⟨fun v hv => ?_, fun v hv => ?_⟩
  · rw [hav, hxv0]
    refine (key v).1 (hlo v hv) ?_
    rw [← val_weighted]
    exact (hord 0).1.1 v hv
  · rw [hav, hxv0]
    refine (key v).2 (hup v hv) ?_
    rw [← val_weighted]
    exact (hord 0).1.2 v hv

/-- **C189.** Simulations with the constraint: in every period the average over any sample (`es` holds for every period the shocks of all members) is
at most as good as the simulation from the average state with the average shocks. -/
theorem C189_simulate : ∀ (es : List (ι → ε → K)) {st : ι → p ⊕ z → K} {st0 : p ⊕ z → K} {res : ι → SimRes z p K} {res0 : SimRes z p K},
    Spec.OrderedBy lay lo up (∑ i ∈ S, a i • st i) st0 →
    (∀ i ∈ S, simLoop mod false (st i) (es.map fun e => e i) = .ok (res i)) → (∀ i ∈ S, (res i).flag = 0) →
    simLoop mod false st0 (es.map fun e => ∑ i ∈ S, a i • e i) = .ok res0 → res0.flag = 0 →
    ∀ (t : Nat) {x : ι → p ⊕ z → K} {x0 : p ⊕ z → K}, (∀ i ∈ S, (res i).X[t]? = some (x i)) → res0.X[t]? = some x0 →
      Spec.OrderedBy lay lo up (∑ i ∈ S, a i • x i) x0 := by
  intro es
  induction es with
  | nil =>
    intro st st0 res res0 ho hr _ hr0 _ t x x0 hx hx0
    cases hr0
    rcases t with _ | t
    · cases hx0
      have hs : ∑ i ∈ S, a i • x i = ∑ i ∈ S, a i • st i := Finset.sum_congr rfl fun i hi => by
        have g := hx i hi
        rw [← Except.ok.inj (hr i hi)] at g
        rw [← Option.some.inj g]
      rw [hs]
      exact ho
    · cases hx0
  | cons e es ih =>
    intro st st0 res res0 ho hr hf hr0 hf0 t x x0 hx hx0
    have step : ∀ i ∈ S, ∃ r s, tFunc mod (st i) (e i) .none false = .ok r ∧ r.flag = 0 ∧
        simLoop mod false r.state (es.map fun e => e i) = .ok s ∧ s.flag = 0 ∧ (res i).X = st i :: s.X := by
      intro i hi
      have g := hr i hi
      have g' := hf i hi
      rw [List.map_cons] at g
      unfold simLoop at g
      generalize hr : tFunc mod (st i) (e i) .none false = x at g
      rcases x with err | r
      · cases g
      simp only at g
      generalize hx : simLoop mod false r.state (es.map fun e => e i) = y at g
      rcases y with err | y
      · cases g
      have g := Except.ok.inj g
      rw [← g] at g' ⊢
      simp only [Nat.or_eq_zero_iff] at g'
      exact ⟨r, y, rfl, g'.1, hx, g'.2, rfl⟩
    haveI : Nonempty (Step z p K) := ⟨⟨0, 0, 0, 0⟩⟩
    haveI : Nonempty (SimRes z p K) := ⟨res0⟩
    choose! r s s1 s2 s3 s4 s5 using step
    rw [List.map_cons] at hr0
    unfold simLoop at hr0
    generalize hrr : tFunc mod st0 (∑ i ∈ S, a i • e i) .none false = q at hr0
    rcases q with err | r0
    · cases hr0
    simp only at hr0
    generalize hss : simLoop mod false r0.state (es.map fun e => ∑ i ∈ S, a i • e i) = y at hr0
    rcases y with err | s0
    · cases hr0
    cases hr0
    simp only [Nat.or_eq_zero_iff] at hf0
    rcases t with _ | t
    · cases hx0
      have hs : ∑ i ∈ S, a i • x i = ∑ i ∈ S, a i • st i := Finset.sum_congr rfl fun i hi => by
        have g := hx i hi
        rw [s5 i hi] at g
        rw [← Option.some.inj g]
      rw [hs]
      exact ho
    · refine ih (C189_transition h hk1 hlag hself hP hZ hlo hup h0 hF ha h1 ho (linearOrders_same h h0 _) s1 s2 hrr hf0.1) s3 s4 hss hf0.2 t
        (fun i hi => ?_) hx0
      have g := hx i hi
      rwa [s5 i hi] at g

end
end Yaml
end Pydsge
