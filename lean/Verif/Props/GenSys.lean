import Verif.Props.Engine
import Verif.Model.Names
import Verif.Examples.Ex1

/-!
# C23 - C28, C71, C72: from the declared model to the solved system
-/

set_option autoImplicit false
set_option linter.unusedSectionVars false
set_option linter.unusedSimpArgs false

namespace Pydsge

open Matrix Pydsge.Engine Pydsge.Spec Pydsge.Tools Pydsge.GenSys

variable {E ν ε o K : Type} [Fintype E] [Fintype ν] [Fintype ε] [Fintype o]
  [DecidableEq E] [DecidableEq ν] [DecidableEq ε] [Field K] [LinearOrder K] [IsStrictOrderedRing K]
variable {H z p : Type} [DecidableEq H] [Fintype H] [Fintype z] [Fintype p] [DecidableEq z] [DecidableEq p]

section Constraint

/-- The constraint row of the unconstrained system (gensys.py:324-325), applied to variables, lagged variables and shocks. -/
def conRow (H : Type) (m : Input E ν ε o K) (x xlag : ν → K) (eps : ε → K) : K :=
  (∑ v, fbY (H := H) (ε := ε) m (.inl (.inl v)) * x v) + (∑ v, fcY (H := H) (ε := ε) m (.inl (.inl v)) * xlag v) +
    ∑ e, fcY (H := H) (ε := ε) m (.inr e) * eps e

/-- The constraint row that the code builds for a declared constraint `x_c = rb x + rc x(-1) + rd eps`. -/
theorem conRow_yaml (H : Type) (D : Declared E ν ε K) (Z0 : Matrix o ν K) (Z1 : o → K) (hself : D.rb D.cvar ≠ 1) (x xlag : ν → K)
    (eps : ε → K) :
    conRow H (yaml D Z0 Z1) x xlag eps =
      (D.rb ⬝ᵥ x - x D.cvar - D.rc ⬝ᵥ xlag) / (1 - D.rb D.cvar) + D.rd ⬝ᵥ eps := by
  have h1 : (1 : K) - D.rb D.cvar ≠ 0 := sub_ne_zero.2 (Ne.symm hself)
  have e1 : ∀ v, fbY (H := H) (ε := ε) (yaml D Z0 Z1) (.inl (.inl v)) = (D.rb v - if v = D.cvar then 1 else 0) / (1 - D.rb D.cvar) := by
    intro v
    show -((if v = D.cvar then (1:K) else 0) - D.rb v) / ((if D.cvar = D.cvar then (1:K) else 0) - D.rb D.cvar) = _
    rw [if_pos rfl, neg_sub]
  have e2 : ∀ v, fcY (H := H) (ε := ε) (yaml D Z0 Z1) (.inl (.inl v)) = -D.rc v / (1 - D.rb D.cvar) := by
    intro v
    show -(-(-D.rc v) / ((if D.cvar = D.cvar then (1:K) else 0) - D.rb D.cvar)) = _
    rw [if_pos rfl]; ring
  have e3 : ∀ e, fcY (H := H) (ε := ε) (yaml D Z0 Z1) (.inr e) = D.rd e := by
    intro e
    show -(-D.rd e) = _
    rw [neg_neg]
  unfold conRow
  simp only [e1, e2, e3]
  have s1 : ∑ v, (D.rb v - if v = D.cvar then 1 else 0) / (1 - D.rb D.cvar) * x v = (D.rb ⬝ᵥ x - x D.cvar) / (1 - D.rb D.cvar) := by
    rw [sub_div, dotProduct, Finset.sum_div]
    have : x D.cvar / (1 - D.rb D.cvar) = ∑ v, (if v = D.cvar then 1 else 0) / (1 - D.rb D.cvar) * x v := by
      simp [ite_div, ite_mul]
      ring
    rw [this, ← Finset.sum_sub_distrib]
    refine Finset.sum_congr rfl fun v _ => ?_
    ring
  have s2 : ∑ v, -D.rc v / (1 - D.rb D.cvar) * xlag v = -(D.rc ⬝ᵥ xlag) / (1 - D.rb D.cvar) := by
    rw [dotProduct, ← Finset.sum_neg_distrib, Finset.sum_div]
    refine Finset.sum_congr rfl fun v _ => ?_
    ring
  rw [s1, s2]
  simp only [dotProduct]
  ring

/-- The declared constraint equation. -/
def ConstraintHolds (D : Declared E ν ε K) (x xlag : ν → K) (eps : ε → K) : Prop :=
  x D.cvar = D.rb ⬝ᵥ x + D.rc ⬝ᵥ xlag + D.rd ⬝ᵥ eps

/-- **C23** (holds without lagged variables in the constraint, and if the constrained variable does not appear on the right
hand side together with shocks): the constraint row of the solved system holds iff the declared constraint does. -/
theorem C23_constraint_as_declared_partial (H : Type) (D : Declared E ν ε K) (Z0 : Matrix o ν K) (Z1 : o → K) (hlag : D.rc = 0)
    (hself : D.rb D.cvar ≠ 1) (hsh : D.rb D.cvar = 0 ∨ D.rd = 0) (x xlag : ν → K) (eps : ε → K) :
    conRow H (yaml D Z0 Z1) x xlag eps = 0 ↔ ConstraintHolds D x xlag eps := by
  have h1 : (1 : K) - D.rb D.cvar ≠ 0 := sub_ne_zero.2 (Ne.symm hself)
  rw [conRow_yaml H D Z0 Z1 hself, ConstraintHolds, hlag, zero_dotProduct]
  rcases hsh with hsh | hsh
  · simp only [hsh, sub_zero, div_one]
    constructor <;> intro h <;> linear_combination -h
  · rw [hsh, zero_dotProduct, add_zero, div_eq_zero_iff]
    constructor
    · rintro (h | h)
      · linear_combination -h
      · exact absurd h h1
    · intro h; left; linear_combination -h

example : (Ex1.declB (-1)).rc = 0 ∧ (Ex1.declB (-1)).rb (Ex1.declB (-1)).cvar ≠ 1 ∧ (Ex1.declB (-1)).rb (Ex1.declB (-1)).cvar = 0 := by
  simp [Ex1.declB]

/-- A constraint with a lag: `r = y(-1)`. -/
def exLag : Declared (Fin 1) (Fin 2) (Fin 1) Rat where
  A := fun _ v => if v = 1 then 1 else 0
  B := fun _ v => if v = 0 then 1 else 0
  C := 0
  D := fun _ _ => -1
  cvar := 1
  rb := 0
  rc := fun v => if v = 0 then 1 else 0
  rd := 0
  xbar := -1

/-- **C23** refuted: the constraint `r = y(-1)` enters as `r = -y(-1)`: with `y(-1) = 1` the declared constraint gives `r = 1`,
the row of the solved system `r = -1`. -/
theorem C23_constraint_as_declared_refuted (Z0 : Matrix (Fin 1) (Fin 2) Rat) (Z1 : Fin 1 → Rat) :
    ConstraintHolds exLag (fun v => if v = 1 then 1 else 0) (fun _ => 1) 0 ∧
    conRow (Fin 0) (yaml exLag Z0 Z1) (fun v => if v = 1 then 1 else 0) (fun _ => 1) 0 ≠ 0 ∧
    conRow (Fin 0) (yaml exLag Z0 Z1) (fun v => if v = 1 then -1 else 0) (fun _ => 1) 0 = 0 := by
  refine ⟨?_, ?_, ?_⟩
  · simp [ConstraintHolds, exLag, dotProduct]
  · rw [conRow_yaml _ _ _ _ (by simp [exLag])]
    simp [exLag, dotProduct]
    norm_num
  · rw [conRow_yaml _ _ _ _ (by simp [exLag])]
    simp [exLag, dotProduct]

/-- A constraint that contains the constrained variable itself and a shock: `r = 1/2 r + y + e`. -/
def exSelf : Declared (Fin 1) (Fin 2) (Fin 1) Rat where
  A := fun _ v => if v = 1 then 1 else 0
  B := fun _ v => if v = 0 then 1 else 0
  C := 0
  D := fun _ _ => -1
  cvar := 1
  rb := fun v => if v = 0 then 1 else 1/2
  rc := 0
  rd := fun _ => 1
  xbar := -1

/-- **C23** refuted a second time: `r = 1/2 r + y + e` means `r = 2 y + 2 e`, and enters as `r = 2 y + e`. -/
theorem C23_shock_scaling_refuted (Z0 : Matrix (Fin 1) (Fin 2) Rat) (Z1 : Fin 1 → Rat) :
    ConstraintHolds exSelf (fun v => if v = 1 then 2 else 0) 0 (fun _ => 1) ∧
    conRow (Fin 0) (yaml exSelf Z0 Z1) (fun v => if v = 1 then 2 else 0) 0 (fun _ => 1) ≠ 0 ∧
    conRow (Fin 0) (yaml exSelf Z0 Z1) (fun v => if v = 1 then 1 else 0) 0 (fun _ => 1) = 0 := by
  refine ⟨?_, ?_, ?_⟩
  · simp [ConstraintHolds, exSelf, dotProduct]; norm_num
  · rw [conRow_yaml _ _ _ _ (by simp [exSelf])]
    simp [exSelf, dotProduct]
    norm_num
  · rw [conRow_yaml _ _ _ _ (by simp [exSelf])]
    simp [exSelf, dotProduct]
    norm_num

/-- **C72** (holds if no lags enter the constraint): giving zero loadings of the shocks in the constraint is the same as giving
none. -/
theorem C72_zero_fd_is_none_partial (H : Type) (m : Input E ν ε o K) (hfc : m.fc0 = 0) (y : Cols ν H ε) :
    fcY (H := H) { m with fd0 := some 0 } y = fcY (H := H) { m with fd0 := none } y := by
  rcases y with (v | h) | e <;> simp [fcY, fcN, hfc]

/-- **C72**, solved models (again without lags in the constraint): the variables are split in the same way into states and controls, and `gen_sys` returns the
same model (or the same error), whatever the external routines are. -/
theorem C72_same_model_partial {H z p : Type} [DecidableEq H] [Fintype H] [Fintype z] [Fintype p] [DecidableEq z] [DecidableEq p] [Fintype E]
    [Fintype ε] (tol : K) (m : Input E ν ε o K) (hfc : m.fc0 = 0)
    [DecidablePred (inall tol { m with fd0 := some 0 })] [DecidablePred (inall tol { m with fd0 := none })]
    (lay : Layout tol { m with fd0 := some 0 } H z p) : ∃ lay' : Layout tol { m with fd0 := none } H z p,
      lay'.hyb = lay.hyb ∧ lay'.zi = lay.zi ∧ lay'.pi = lay.pi ∧
      ∀ orc lMax kMax sched, genSys lay' orc lMax kMax sched = genSys lay orc lMax kMax sched := by
  have hf : fcY (H := H) (ε := ε) { m with fd0 := none } = fcY (H := H) { m with fd0 := some 0 } :=
    funext fun y => (C72_zero_fd_is_none_partial H m hfc y).symm
  have hC : CC1 tol { m with fd0 := none } lay.hyb = CC1 tol { m with fd0 := some 0 } lay.hyb := by
    funext r y
    rcases r with (e | h) | e <;> rcases y with (v | h') | e' <;> simp only [CC1]
    exact if_congr Iff.rfl rfl rfl
  have hq : ∀ y, inq tol { m with fd0 := none } lay.hyb y ↔ inq tol { m with fd0 := some 0 } lay.hyb y := by
    intro y
    simp only [inq, hC, hf]
  have hp : ∀ y, inp tol { m with fd0 := none } lay.hyb y ↔ inp tol { m with fd0 := some 0 } lay.hyb y := by
    intro y
    simp only [inp, hq]
    exact Iff.rfl
  let lay' : Layout tol { m with fd0 := none } H z p :=
    { hyb := lay.hyb, zi := lay.zi, pi := lay.pi, hyb_inj := lay.hyb_inj, hyb_range := lay.hyb_range, zi_inj := lay.zi_inj
      zi_range := fun w => (lay.zi_range w).trans (hq _).symm
      pi_inj := lay.pi_inj, pi_range := fun w => (lay.pi_range w).trans (hp _).symm
      shocks := fun e => (hq _).2 (lay.shocks e), square := lay.square }
  refine ⟨lay', rfl, rfl, rfl, fun orc lMax kMax sched => ?_⟩
  have e1 : MU lay' = MU lay := by
    funext r j
    rcases j with j | j
    · rcases r with r | u
      · exact congrFun (congrFun hC r) _
      · exact congrFun hf _
    · rfl
  have e2 : MR lay' = MR lay := by
    funext r j
    rcases j with j | j
    · rcases r with r | u
      · exact congrFun (congrFun hC r) _
      · rfl
    · rfl
  have e3 : ff lay' = ff lay := by
    have h1 : (ff lay').fq0 = (ff lay).fq0 := funext fun j => congrFun hf _
    have h2 : (ff lay').fq1 = (ff lay).fq1 := rfl
    have h3 : (ff lay').fp1 = (ff lay).fp1 := rfl
    rcases hx : ff lay' with ⟨a, b, c⟩
    rcases hy : ff lay with ⟨a', b', c'⟩
    rw [hx, hy] at h1 h2 h3
    simp only at h1 h2 h3
    rw [h1, h2, h3]
  have e4 : sysOf lay' orc = sysOf lay orc := by
    unfold sysOf
    rw [e1, e2]
    rfl
  unfold genSys
  rw [e3, e4]
  rfl

/-- **C72** refuted: with a lag in the constraint, `fd = 0` and `fd = None` give constraint rows with opposite signs. -/
theorem C72_zero_fd_is_none_refuted (H : Type) (m : Input E ν ε o K) (v : ν) (hfc : m.fc0 v ≠ 0) (hfb : m.fb0 m.cvar ≠ 0) :
    fcY (H := H) (ε := ε) { m with fd0 := some 0 } (.inl (.inl v)) ≠ fcY (H := H) (ε := ε) { m with fd0 := none } (.inl (.inl v)) := by
  simp only [fcY, fcN]
  intro h
  have h2 : -m.fc0 v / m.fb0 m.cvar = 0 := by linarith
  rw [div_eq_zero_iff] at h2
  rcases h2 with h2 | h2
  · exact hfc (neg_eq_zero.1 h2)
  · exact hfb h2

example : ∃ v, (yaml exLag 0 0 : Input (Fin 1) (Fin 2) (Fin 1) (Fin 1) Rat).fc0 v ≠ 0 ∧
    (yaml exLag 0 0 : Input (Fin 1) (Fin 2) (Fin 1) (Fin 1) Rat).fb0 1 ≠ 0 :=
  ⟨0, by simp [yaml, Input.ofYaml, exLag], by simp [yaml, Input.ofYaml, exLag]⟩

end Constraint

section Forward
variable {tol : K} {m : Input E ν ε o K} [DecidablePred (inall tol m)] {lay : Layout tol m H z p}

/-- **C24** (holds if no variable whose lag enters the constraint is forward looking): every expectation term of a declared
equation is in the solved system, with its coefficient, in both regimes. -/
theorem C24_no_forward_term_lost_partial (ht : NoTiny tol m) (hf : NoLagFwd m) (e : E) (v : ν) (hA : m.AA0 e v ≠ 0) :
    ∃ j : p, lay.pi j = .inl v ∧ PU lay (.inl (.inl (.inl e))) (.inr j) = -m.AA0 e v ∧
      PR lay (.inl (.inl (.inl e))) (.inr j) = -m.AA0 e v := by
  have hq : ¬ inq tol m lay.hyb (.inl (.inl v)) := by
    intro hq
    exact hA (AAc_zero ht lay hf hq (.inl (.inl (.inl e))))
  have hp : inp tol m lay.hyb (.inl (.inl v)) := by
    refine ⟨.inl fun hc => ?_, hq⟩
    exact hA (ht.A e v (hc (.inl (.inl e))))
  obtain ⟨j, hj⟩ := (lay.pi_range (.inl v)).2 hp
  refine ⟨j, hj, ?_, ?_⟩
  · simp only [PU, AAc, AA1, hj]
  · simp only [PR, AAc, AA1, hj]

/-- `r(+1)` of the example is kept. -/
example : ∃ j, (Ex1.layB (-1)).pi j = .inl 1 ∧ PU (Ex1.layB (-1)) (.inl (.inl (.inl 0))) (.inr j) = -1 ∧
    PR (Ex1.layB (-1)) (.inl (.inl (.inl 0))) (.inr j) = -1 := by
  have h := C24_no_forward_term_lost_partial (lay := Ex1.layB (-1)) Ex1.noTiny (fun v h => by
    simp [fcN, yaml, Input.ofYaml, Ex1.declB] at h) 0 1
    (by simp [yaml, Input.ofYaml, Ex1.declB])
  simpa [yaml, Input.ofYaml, Ex1.declB] using h

/-- `y = y(+1) - r + e` with the constraint `r = y(-1)`. -/
def exFwd : Declared (Fin 1) (Fin 2) (Fin 1) Rat where
  A := fun _ v => if v = 0 then -1 else 0
  B := fun _ _ => 1
  C := 0
  D := fun _ _ => -1
  cvar := 1
  rb := 0
  rc := fun v => if v = 0 then 1 else 0
  rd := 0
  xbar := -1

abbrev inFwd : Input (Fin 1) (Fin 2) (Fin 1) (Fin 1) Rat := yaml exFwd 0 0

theorem fwd_not_inall (v : Fin 2) : ¬ inall Ex1.tol inFwd v := by
  rintro ⟨_, h2⟩
  apply h2; intro i
  simp [yaml, Input.ofYaml, exFwd, Ex1.tol]

instance : DecidablePred (inall Ex1.tol inFwd) := fun v => .isFalse (fwd_not_inall v)

theorem fwd_inq_y : inq Ex1.tol inFwd Ex1.hyb (.inl (.inl 0)) := by
  right
  simp [fast0, fcY, fcN, yaml, Input.ofYaml, exFwd, Ex1.tol]
  norm_num

theorem fwd_inq_e (e : Fin 1) : inq Ex1.tol inFwd Ex1.hyb (.inr e) := by
  left
  intro h
  have := h (.inl (.inl 0))
  simp [CC1, yaml, Input.ofYaml, exFwd, Ex1.tol] at this
  norm_num at this

theorem fwd_not_inq_r : ¬ inq Ex1.tol inFwd Ex1.hyb (.inl (.inl 1)) := by
  rintro (h | h)
  · apply h
    rintro ((r | r) | r)
    · simp only [CC1, if_neg (fwd_not_inall 1)]
      simp [yaml, Input.ofYaml, exFwd, Ex1.tol]
    · exact r.elim0
    · simp [CC1, Ex1.tol]
  · apply h
    simp [fast0, fcY, fcN, yaml, Input.ofYaml, exFwd, Ex1.tol]

theorem fwd_inp_r : inp Ex1.tol inFwd Ex1.hyb (.inl (.inl 1)) := by
  refine ⟨.inr ?_, fwd_not_inq_r⟩
  intro h
  have := h (.inl (.inl 0))
  simp [BB1, yaml, Input.ofYaml, exFwd, Ex1.tol] at this
  norm_num at this

def layFwd : Layout Ex1.tol inFwd (Fin 0) (Fin 1) (Fin 1) where
  hyb := Ex1.hyb
  zi := fun _ => .inl 0
  pi := fun _ => .inl 1
  hyb_inj := fun a => a.elim0
  hyb_range := fun v => ⟨fun ⟨h, _⟩ => h.elim0, fun h => absurd h (fwd_not_inall v)⟩
  zi_inj := fun a b _ => Subsingleton.elim a b
  zi_range := by
    rintro (v | h)
    · fin_cases v
      · exact ⟨fun _ => fwd_inq_y, fun _ => ⟨0, rfl⟩⟩
      · refine ⟨?_, fun h => absurd h fwd_not_inq_r⟩
        rintro ⟨i, h⟩; simp at h
    · exact h.elim0
  pi_inj := fun a b _ => Subsingleton.elim a b
  pi_range := by
    rintro (v | h)
    · fin_cases v
      · refine ⟨?_, fun h => absurd fwd_inq_y h.2⟩
        rintro ⟨i, h⟩; simp at h
      · exact ⟨fun _ => fwd_inp_r, fun _ => ⟨0, rfl⟩⟩
    · exact h.elim0
  shocks := fwd_inq_e
  square := rfl

/-- **C24** refuted: in `y = y(+1) - r + e` with the constraint `r = y(-1)`, `y` becomes a state and its expectation is dropped: the
equation row of the solved system has no expectation at all, in any regime and whatever the masks look like. -/
theorem C24_no_forward_term_lost_refuted :
    Nonempty (Layout Ex1.tol inFwd (Fin 0) (Fin 1) (Fin 1)) ∧ inFwd.AA0 0 0 = -1 ∧
    ∀ {H z p : Type} [DecidableEq H] [Fintype H] [Fintype z] [Fintype p] [DecidableEq z] [DecidableEq p]
      (lay : Layout Ex1.tol inFwd H z p) (j : p),
      PU lay (.inl (.inl (.inl 0))) (.inr j) = 0 ∧ PR lay (.inl (.inl (.inl 0))) (.inr j) = 0 := by
  refine ⟨⟨layFwd⟩, by simp [yaml, Input.ofYaml, exFwd], ?_⟩
  intro H z p _ _ _ _ _ _ lay j
  have hy : lay.pi j ≠ .inl 0 := by
    intro h
    have := (lay.pi_range (.inl 0)).1 ⟨j, h⟩
    apply this.2
    right
    simp [fast0, fcY, fcN, yaml, Input.ofYaml, exFwd, Ex1.tol]
    norm_num
  have : AAc (H := H) inFwd (.inl (.inl (.inl 0))) (.inl (lay.pi j)) = 0 := by
    rcases hw : lay.pi j with v | h
    · fin_cases v
      · exact absurd hw hy
      · simp [AAc, AA1, yaml, Input.ofYaml, exFwd]
    · rfl
  simp only [PU, PR, this, neg_zero, and_self]

end Forward

section Aux
variable (tol : K) (m : Input E ν ε o K) (hyb : H → ν) [DecidablePred (inall tol m)]

/-- The augmented system holds in period `s` along a path `Y` of y-space. -/
def AugHolds (Ylag : Cols ν H ε → K) (Y : Nat → Cols ν H ε → K) (s : Nat) : Prop :=
  AA1 m *ᵥ Y (s + 1) + BB1 m hyb *ᵥ Y s + CC1 tol m hyb *ᵥ prev Ylag Y s = 0

/-- The declared equations hold in period `s` along a path `x` (with the shocks `eps` of that period). -/
def DeclHolds (xlag : ν → K) (eps : Nat → ε → K) (x : Nat → ν → K) (s : Nat) : Prop :=
  m.AA0 *ᵥ x (s + 1) + m.BB0 *ᵥ x s + m.CC0 *ᵥ prev xlag x s + m.DD0 *ᵥ eps s = 0

/-- **C25**: a path satisfies the augmented system iff the declared variables satisfy the declared equations, the auxiliary
variables equal the variables that they duplicate, and no shocks are expected after period 0. -/
theorem C25_auxiliary_variables (hinj : Function.Injective hyb) (hrange : ∀ v, (∃ h, hyb h = v) ↔ inall tol m v)
    (Ylag : Cols ν H ε → K) (hlag : ∀ h, Ylag (.inl (.inr h)) = Ylag (.inl (.inl (hyb h)))) (Y : Nat → Cols ν H ε → K) :
    (∀ s, AugHolds tol m hyb Ylag Y s) ↔
      (∀ s, DeclHolds m (fun v => Ylag (.inl (.inl v))) (shockAt (fun e => Ylag (.inr e))) (fun s v => Y s (.inl (.inl v))) s) ∧
      (∀ s h, Y s (.inl (.inr h)) = Y s (.inl (.inl (hyb h)))) ∧ (∀ s e, Y s (.inr e) = 0) := by
  -- rows of the auxiliary definitions and of the shocks
  have rowH : ∀ s h, (AA1 m *ᵥ Y (s + 1) + BB1 m hyb *ᵥ Y s + CC1 tol m hyb *ᵥ prev Ylag Y s) (.inl (.inr h)) =
      Y s (.inl (.inr h)) - Y s (.inl (.inl (hyb h))) := by
    intro s h
    simp only [Pi.add_apply, mulVec, dotProduct, Fintype.sum_sum_type, AA1, BB1, CC1, zero_mul, Finset.sum_const_zero, ite_mul,
      one_mul, neg_mul, Finset.sum_ite_eq, Finset.mem_univ, if_true]
    ring
  have rowE : ∀ s e, (AA1 m *ᵥ Y (s + 1) + BB1 m hyb *ᵥ Y s + CC1 tol m hyb *ᵥ prev Ylag Y s) (.inr e) = Y s (.inr e) := by
    intro s e
    simp only [Pi.add_apply, mulVec, dotProduct, Fintype.sum_sum_type, AA1, BB1, CC1, zero_mul, Finset.sum_const_zero, ite_mul,
      one_mul, neg_mul, Finset.sum_ite_eq, Finset.mem_univ, if_true]
    ring
  -- the lag term, when the auxiliary lags are the lags
  have lagTerm : ∀ (L : Cols ν H ε → K) (i : E), (∀ h, L (.inl (.inr h)) = L (.inl (.inl (hyb h)))) →
      (∑ v, (if inall tol m v then 0 else m.CC0 i v) * L (.inl (.inl v))) + ∑ h, m.CC0 i (hyb h) * L (.inl (.inr h)) =
        ∑ v, m.CC0 i v * L (.inl (.inl v)) := by
    intro L i hL
    have e1 : ∑ h, m.CC0 i (hyb h) * L (.inl (.inr h)) = ∑ v, if inall tol m v then m.CC0 i v * L (.inl (.inl v)) else 0 := by
      rw [← Finset.sum_filter]
      have : (Finset.univ.filter fun v => inall tol m v) = Finset.univ.image hyb := by
        ext v; simp [← hrange]
      rw [this, Finset.sum_image (fun a _ b _ hab => hinj hab)]
      exact Finset.sum_congr rfl fun h _ => by rw [hL]
    rw [e1, ← Finset.sum_add_distrib]
    refine Finset.sum_congr rfl fun v _ => ?_
    split_ifs <;> ring
  have rowX : ∀ s i, (∀ h, prev Ylag Y s (.inl (.inr h)) = prev Ylag Y s (.inl (.inl (hyb h)))) →
      (AA1 m *ᵥ Y (s + 1) + BB1 m hyb *ᵥ Y s + CC1 tol m hyb *ᵥ prev Ylag Y s) (.inl (.inl i)) =
      (m.AA0 *ᵥ (fun v => Y (s+1) (.inl (.inl v))) + m.BB0 *ᵥ (fun v => Y s (.inl (.inl v))) +
        m.CC0 *ᵥ (fun v => prev Ylag Y s (.inl (.inl v))) + m.DD0 *ᵥ (fun e => prev Ylag Y s (.inr e))) i := by
    intro s i hL
    simp only [Pi.add_apply, mulVec, dotProduct, Fintype.sum_sum_type, AA1, BB1, CC1, zero_mul, Finset.sum_const_zero, add_zero]
    rw [lagTerm _ i hL]
    ring
  have prevx : ∀ s, (fun v => prev Ylag Y s (.inl (.inl v))) = prev (fun v => Ylag (.inl (.inl v))) (fun s v => Y s (.inl (.inl v))) s := by
    intro s; cases s <;> rfl
  constructor
  · intro hA
    have hH : ∀ s h, Y s (.inl (.inr h)) = Y s (.inl (.inl (hyb h))) := by
      intro s h
      have := congrFun (hA s) (.inl (.inr h))
      rw [rowH] at this
      exact sub_eq_zero.1 this
    have hE : ∀ s e, Y s (.inr e) = 0 := by
      intro s e
      have := congrFun (hA s) (.inr e)
      rw [rowE] at this
      exact this
    refine ⟨fun s => ?_, hH, hE⟩
    have hL : ∀ h, prev Ylag Y s (.inl (.inr h)) = prev Ylag Y s (.inl (.inl (hyb h))) := by
      cases s with
      | zero => exact hlag
      | succ s => exact hH s
    have hS : (fun e => prev Ylag Y s (.inr e)) = shockAt (fun e => Ylag (.inr e)) s := by
      cases s with
      | zero => rfl
      | succ s => funext e; exact hE s e
    funext i
    have := congrFun (hA s) (.inl (.inl i))
    rw [rowX s i hL, prevx, hS] at this
    exact this
  · rintro ⟨hD, hH, hE⟩ s
    have hL : ∀ h, prev Ylag Y s (.inl (.inr h)) = prev Ylag Y s (.inl (.inl (hyb h))) := by
      cases s with
      | zero => exact hlag
      | succ s => exact hH s
    have hS : (fun e => prev Ylag Y s (.inr e)) = shockAt (fun e => Ylag (.inr e)) s := by
      cases s with
      | zero => rfl
      | succ s => funext e; exact hE s e
    funext r
    rcases r with (i | h) | e
    · rw [rowX s i hL, prevx, hS]
      exact congrFun (hD s) i
    · rw [rowH, hH, sub_self]; rfl
    · rw [rowE, hE]; rfl

/-- A path that satisfies both sides, with a shock: `y = 3/4 y(-1) - r(+1) + e` with `r = 0` throughout. -/
example : ∃ Y : Nat → Cols (Fin 2) (Fin 0) (Fin 1) → Rat, Y 0 (.inl (.inl 0)) = 1 ∧
    ∀ s, AugHolds Ex1.tol (Ex1.inpB (-1)) Ex1.hyb (fun y => match y with | .inr _ => 1 | _ => 0) Y s := by
  refine ⟨fun s y => match y with
    | .inl (.inl v) => if v = 0 then (3/4) ^ s else 0
    | _ => 0, by simp, ?_⟩
  rw [C25_auxiliary_variables Ex1.tol (Ex1.inpB (-1)) Ex1.hyb (fun a => a.elim0) (Ex1.layB (-1)).hyb_range _ (fun h => h.elim0)]
  refine ⟨fun s => ?_, fun s h => h.elim0, fun s e => rfl⟩
  funext i
  cases s with
  | zero => simp [mulVec, dotProduct, Spec.prev, shockAt, yaml, Input.ofYaml, Ex1.declB]
  | succ s => simp [mulVec, dotProduct, Spec.prev, shockAt, yaml, Input.ofYaml, Ex1.declB]; ring

end Aux

section Names
variable (tol : K) (m : Input E ν ε o K) (hyb : H → ν) [DecidablePred (inall tol m)]

/-- A variable occurs in the system: in some equation or, lagged, in the constraint (coefficients below the tolerance of `fast0`
count as zero). -/
def Occurs (w : ν ⊕ H) : Prop :=
  ¬ fast0Col tol (AA1 (H := H) m) (.inl w) ∨ ¬ fast0Col tol (BB1 m hyb) (.inl w) ∨ ¬ fast0Col tol (CC1 tol m hyb) (.inl w) ∨
    ¬ fast0 tol (fcY (H := H) (ε := ε) m (.inl w))

/-- **C26**, positions: the list of variables has no repetitions, contains exactly the variables that occur in the system, and its
length is `dimp + dimq - dimeps` if all shocks have an effect. -/
theorem C26_positions (vv0 : List (ν ⊕ H)) (hn : vv0.Nodup) (hall : ∀ w, w ∈ vv0) (shocks : List ε)
    (hsh : ∀ e, inq tol m hyb (.inr e)) :
    (vv tol m hyb vv0).Nodup ∧ (∀ w, w ∈ vv tol m hyb vv0 ↔ Occurs tol m hyb w) ∧
    (vv tol m hyb vv0).length + shocks.length = dimp tol m hyb vv0 shocks + dimq tol m hyb vv0 shocks := by
  classical
  refine ⟨?_, ?_, ?_⟩
  · unfold vv cvv svv
    rw [List.nodup_append]
    refine ⟨hn.filter _, hn.filter _, ?_⟩
    intro a ha b hb hab
    subst hab
    rw [List.mem_filter] at ha hb
    have h1 := ha.2; have h2 := hb.2
    simp only [decide_eq_true_eq] at h1 h2
    exact h1.2 h2
  · intro w
    unfold vv cvv svv
    rw [List.mem_append, List.mem_filter, List.mem_filter]
    simp only [hall w, true_and, decide_eq_true_eq]
    unfold inp Occurs inq
    tauto
  · unfold vv cvv svv dimp dimq
    have hP : (shocks.map (Sum.inr : ε → Cols ν H ε)).filter (fun y => inp tol m hyb y) = [] := by
      rw [List.filter_eq_nil_iff]
      intro y hy
      obtain ⟨e, _, rfl⟩ := List.mem_map.1 hy
      simp only [decide_eq_true_eq]
      exact fun h => h.2 (hsh e)
    have hQ : (shocks.map (Sum.inr : ε → Cols ν H ε)).filter (fun y => inq tol m hyb y) = shocks.map Sum.inr := by
      rw [List.filter_eq_self]
      intro y hy
      obtain ⟨e, _, rfl⟩ := List.mem_map.1 hy
      simp only [decide_eq_true_eq]
      exact hsh e
    rw [List.filter_append, List.filter_append, hP, hQ]
    simp only [List.length_append, List.filter_map, List.length_map, List.length_nil, add_zero]
    have : ∀ P : Cols ν H ε → Prop, ((fun y => decide (P y)) ∘ (Sum.inl : ν ⊕ H → Cols ν H ε)) = fun w => decide (P (.inl w)) := fun _ => rfl
    rw [this, this]
    omega

/-- **C26** (holds if no declared variable is called like an auxiliary one): every name appears exactly once. -/
theorem C26_names_once_partial (name : ν → String) (hname : Function.Injective name) (hinj : Function.Injective hyb)
    (hclash : ∀ v h, name v ≠ name (hyb h) ++ "_lag") (vv0 : List (ν ⊕ H)) (hn : vv0.Nodup) (hall : ∀ w, w ∈ vv0)
    (hsh : ∀ e, inq tol m hyb (.inr e)) : ((vv tol m hyb vv0).map (nameOf name hyb)).Nodup ∧
      ∀ w, nameOf name hyb w ∈ (vv tol m hyb vv0).map (nameOf name hyb) ↔ Occurs tol m hyb w := by
  have hni : Function.Injective (nameOf name hyb) := by
    intro a b hab
    rcases a with a | a <;> rcases b with b | b <;> simp only [nameOf] at hab
    · rw [hname hab]
    · exact absurd hab (hclash a b)
    · exact absurd hab.symm (hclash b a)
    · have := String.toList_inj.2 hab
      rw [String.toList_append, String.toList_append] at this
      have h2 := String.toList_inj.1 (List.append_cancel_right this)
      rw [hinj (hname h2)]
  obtain ⟨h1, h2, _⟩ := C26_positions tol m hyb vv0 hn hall [] hsh
  refine ⟨h1.map hni, fun w => ?_⟩
  rw [List.mem_map_of_injective hni, h2]

/-- Two variables `y` and `y_lag` (declared by the user), with `y(+1) + y_lag + y(-1) + e = 0`. -/
def exNames : Input (Fin 1) (Fin 2) (Fin 1) (Fin 1) Rat where
  AA0 := fun _ v => if v = 0 then 1 else 0
  BB0 := fun _ v => if v = 1 then 1 else 0
  CC0 := fun _ v => if v = 0 then 1 else 0
  DD0 := fun _ _ => 1
  fb0 := fun _ => 1
  fc0 := 0
  fd0 := none
  ZZ0 := 0
  ZZ1 := 0
  cvar := 1
  xbar := -1

/-- **C26** refuted: with a declared variable `y_lag` and a variable `y` that has a lead and a lag, the name `y_lag` is there twice. -/
theorem C26_names_once_refuted [DecidablePred (inall Ex1.tol exNames)] :
    inall Ex1.tol exNames 0 ∧ ¬ inall Ex1.tol exNames 1 ∧
    ¬ ((vv Ex1.tol exNames (fun _ : Fin 1 => 0) (allVars [0, 1] [0])).map
      (nameOf (fun v => if v = 0 then "y" else "y_lag") (fun _ => 0))).Nodup := by
  refine ⟨⟨fun h => ?_, fun h => ?_⟩, fun h => h.1 fun i => ?_, fun hn => ?_⟩
  · have := h 0; simp [exNames, Ex1.tol] at this; norm_num at this
  · have := h 0; simp [exNames, Ex1.tol] at this; norm_num at this
  · simp [exNames, Ex1.tol]
  · have hm := (C26_positions Ex1.tol exNames (fun _ : Fin 1 => 0) (allVars [0, 1] [0]) (by simp [allVars])
      (by rintro (v | v) <;> fin_cases v <;> simp [allVars]) [] (by
        intro e; left; intro h; have := h (.inl (.inl 0)); simp [CC1, exNames, Ex1.tol] at this; norm_num at this)).2.1
    have h1 : (.inl 1 : Fin 2 ⊕ Fin 1) ∈ vv Ex1.tol exNames (fun _ : Fin 1 => 0) (allVars [0, 1] [0]) := by
      rw [hm]; right; left; intro h
      have := h (.inl (.inl 0)); simp [BB1, exNames, Ex1.tol] at this; norm_num at this
    have h2 : (.inr 0 : Fin 2 ⊕ Fin 1) ∈ vv Ex1.tol exNames (fun _ : Fin 1 => 0) (allVars [0, 1] [0]) := by
      rw [hm]; right; left; intro h
      have := h (.inl (.inr 0)); simp [BB1, exNames, Ex1.tol] at this; norm_num at this
    have := List.inj_on_of_nodup_map hn h1 h2 (by decide)
    simp at this

end Names

section Bounds

/-- The bounds after a sequence of `gen_sys` calls with the given arguments; a call that raises leaves them as they are (the
error is raised before `self.lks` is set). -/
def lksAfter : Option (Int × Int) → List (Option Int × Option Int) → Option (Int × Int)
  | prev, [] => prev
  | prev, c :: cs =>
    match newLks c.1 c.2 prev with
    | .ok lk => lksAfter (some lk) cs
    | .error _ => lksAfter prev cs

/-- **C27**: after `gen_sys` with explicit bounds, any number of later calls without bounds keeps the same effective bounds; a later
call with only `k_max` keeps `l_max`; and the effective `l_max` is at least 3 if `k_max > 0` was given. -/
theorem C27_bounds_are_sticky (prev : Option (Int × Int)) (l k : Int) (hl : 0 ≤ l) (n : Nat) :
    ∃ lk : Int × Int, newLks (some l) (some k) prev = .ok lk ∧ lk.2 = k ∧ (2 ≤ l → lk.1 = l + 1) ∧ (0 < k → 3 ≤ lk.1) ∧
      lksAfter prev ((some l, some k) :: List.replicate n (none, none)) = some lk ∧
      ∀ k', lksAfter prev ((some l, some k) :: List.replicate n (none, none) ++ [(none, some k')]) = some (lk.1, k') := by
  have hrep : ∀ (lk : Int × Int) n cs, lksAfter (some lk) (List.replicate n (none, none) ++ cs) = lksAfter (some lk) cs := by
    intro lk n cs
    induction n with
    | zero => rfl
    | succ n ih =>
      rw [List.replicate_succ, List.cons_append]
      simp only [lksAfter, newLks]
      exact ih
  have hrep0 : ∀ (lk : Int × Int) n, lksAfter (some lk) (List.replicate n (none, none)) = some lk := by
    intro lk n
    have := hrep lk n []
    rw [List.append_nil] at this
    rw [this]; rfl
  have hok : newLks (some l) (some k) prev = .ok ((if l < 2 then (if k > 0 then 2 else l) + 1 else l + 1), k) := by
    unfold newLks
    by_cases h2 : l < 2 <;> simp [h2]
  refine ⟨_, hok, rfl, ?_, ?_, ?_, ?_⟩
  · intro h2; simp only; rw [if_neg (by omega)]
  · intro hk; simp only; split_ifs <;> omega
  · simp only [lksAfter, hok]; exact hrep0 _ n
  · intro k'
    simp only [List.cons_append, lksAfter, hok, hrep]
    rfl

/-- **C27**, tables: after a successful `gen_sys` the tables have exactly `(l_max+1) x (k_max+1)` cells, all of which are written,
where `(l_max, k_max)` are the stored bounds. -/
theorem C27_table_size {tol : K} {m : Input E ν ε o K} [DecidablePred (inall tol m)] {lay : Layout tol m H z p}
    {orc : Oracle (Rows E H ε) (z ⊕ ε) p K} {lMax kMax : Nat} {sched : Nat → List Nat} {mod : Model z ε p o K}
    (h : Succeeded lay orc lMax kMax sched mod) :
    mod.lks = (lMax, kMax) ∧ mod.tables.L = lMax + 1 ∧ mod.tables.Kk = kMax + 1 ∧
      ∀ l k, l < lMax + 1 → k < kMax + 1 → (mod.tables.pq l k).isSome := by
  obtain ⟨c, hm⟩ := genSys_ok h.perm h.gen
  obtain ⟨M', hS⟩ := hm.eng
  refine ⟨hm.lks, hS.shapeL, hS.shapeK, fun l k hl hk => ?_⟩
  rw [hS.complete.filled l k (by omega) (by omega)]
  rfl

example : newLks (some 1) (some 5) none = .ok (3, 5) ∧ newLks none none (some (3, 5)) = .ok (3, 5) := by decide

/-- **C71** (holds for `l_max ≥ 2`): `l_max` may be given without `k_max`. -/
theorem C71_l_max_alone_partial (prev : Option (Int × Int)) (l : Int) (hl : 2 ≤ l) :
    newLks (some l) none prev = .ok (l + 1, (prev.map (·.2)).getD 17) := by
  unfold newLks
  simp only [if_neg (show ¬ l < 2 by omega)]
  cases prev <;> rfl

/-- **C71** refuted: `l_max = 1` without `k_max` compares `None > 0`. -/
theorem C71_l_max_alone_refuted (prev : Option (Int × Int)) : newLks (some 1) none prev = .error .typeError := rfl

/-- **C28**: `gen_sys` takes `x_bar` from the parameter, else from the parameter function, else it is -1; if it succeeds the value
is not positive, and a positive value raises `NotImplementedError`. -/
theorem C28_x_bar (param parafunc : Option K) :
    (∀ x, xbarOf param parafunc = .ok x → x ≤ 0 ∧ (∀ a, param = some a → x = a) ∧
      (∀ b, param = none → parafunc = some b → x = b) ∧ (param = none → parafunc = none → x = -1)) ∧
    (∀ a, param = some a → 0 < a → xbarOf param parafunc = .error .notImplemented) ∧
    (∀ b, param = none → parafunc = some b → 0 < b → xbarOf param parafunc = .error .notImplemented) ∧
    ((∀ a, param = some a → a ≤ 0) → (∀ b, parafunc = some b → b ≤ 0) → ∃ x, xbarOf param parafunc = .ok x) := by
  have hm1 : ¬ ((-1 : K) > 0) := by simp
  refine ⟨?_, ?_, ?_, ?_⟩
  · intro x
    unfold xbarOf
    cases param with
    | some a =>
      simp only
      split_ifs with h
      · intro h; cases h
      · intro hx; cases hx; exact ⟨le_of_not_gt h, by simp, by simp, by simp⟩
    | none =>
      cases parafunc with
      | some b =>
        simp only
        split_ifs with h
        · intro h; cases h
        · intro hx; cases hx; exact ⟨le_of_not_gt h, by simp, by simp, by simp⟩
      | none =>
        simp only [if_neg hm1]
        intro hx; cases hx
        exact ⟨le_of_not_gt hm1, by simp, by simp, by simp⟩
  · rintro a rfl ha
    simp [xbarOf, ha]
  · rintro b rfl rfl hb
    simp [xbarOf, hb]
  · intro h1 h2
    unfold xbarOf
    cases param with
    | some a => exact ⟨a, by simp [not_lt.2 (h1 a rfl)]⟩
    | none =>
      cases parafunc with
      | some b => exact ⟨b, by simp [not_lt.2 (h2 b rfl)]⟩
      | none => exact ⟨-1, by simp only [if_neg hm1]⟩

example : xbarOf (some (-2 : Rat)) (some 5) = .ok (-2) ∧ xbarOf (none : Option Rat) none = .ok (-1) := by decide +kernel

end Bounds
end Pydsge
