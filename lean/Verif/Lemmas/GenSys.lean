import Verif.Model.GenSys
import Verif.Lemmas.Transition
import Mathlib.Algebra.BigOperators.Group.Finset.Basic
import Mathlib.Data.Fintype.BigOperators
import Mathlib.Tactic.LinearCombination

/-! # The reduced system built by `gen_sys` is the augmented system -/

set_option autoImplicit false
set_option linter.unusedSectionVars false

namespace Pydsge.GenSys

open Matrix Pydsge.Engine Pydsge.Spec

variable {E ν ε o K : Type} [Fintype E] [Fintype ν] [Fintype ε] [Fintype o]
  [DecidableEq E] [DecidableEq ν] [DecidableEq ε] [Field K] [LinearOrder K] [IsStrictOrderedRing K]
variable {H z p : Type} [DecidableEq H] [Fintype H] [Fintype z] [Fintype p] [DecidableEq z] [DecidableEq p]
variable {tol : K} {m : Input E ν ε o K} [DecidablePred (inall tol m)]

/-- Numbers are either zero or not small: `fast0` has no false positives. -/
structure NoTiny (tol : K) (m : Input E ν ε o K) : Prop where
  pos : 0 < tol
  le_one : tol ≤ 1
  A : ∀ i j, |m.AA0 i j| < tol → m.AA0 i j = 0
  B : ∀ i j, |m.BB0 i j| < tol → m.BB0 i j = 0
  C : ∀ i j, |m.CC0 i j| < tol → m.CC0 i j = 0
  D : ∀ i j, |m.DD0 i j| < tol → m.DD0 i j = 0
  fc : ∀ j, |fcN m j| < tol → fcN m j = 0
  fd : ∀ fd, m.fd0 = some fd → ∀ j, |fd j| < tol → fd j = 0

theorem NoTiny.CC1 (h : NoTiny tol m) (hyb : H → ν) (y : Cols ν H ε) (hy : fast0Col tol (CC1 tol m hyb) y) (r) :
    GenSys.CC1 tol m hyb r y = 0 := by
  have hr := hy r
  revert hr
  rcases r with (e | a) | e <;> rcases y with (v | b) | e' <;> simp only [GenSys.CC1] <;> intro hr <;> try trivial
  · split_ifs with hi
    · rfl
    · rw [if_neg hi] at hr; exact h.C _ _ hr
  · exact h.C _ _ hr
  · exact h.D _ _ hr

theorem NoTiny.AA1 (h : NoTiny tol m) (y : Cols ν H ε) (hy : fast0Col tol (AA1 (H := H) m) y) (r) :
    GenSys.AA1 (H := H) m r y = 0 := by
  have hr := hy r
  revert hr
  rcases r with (e | a) | e <;> rcases y with (v | b) | e' <;> simp only [GenSys.AA1] <;> intro hr <;> try trivial
  exact h.A _ _ hr

theorem NoTiny.one (h : NoTiny tol m) : ¬ |(1 : K)| < tol := by
  rw [abs_one]; exact not_lt.2 h.le_one

theorem NoTiny.BB1 (h : NoTiny tol m) (hyb : H → ν) (y : Cols ν H ε) (hy : fast0Col tol (BB1 m hyb) y) (r) :
    GenSys.BB1 m hyb r y = 0 := by
  have hr := hy r
  have h1 := h.one
  revert hr
  rcases r with (e | a) | e <;> rcases y with (v | b) | e' <;> simp only [GenSys.BB1] <;> intro hr <;> try trivial
  · exact h.B _ _ hr
  · split_ifs with hi
    · rw [if_pos hi, abs_neg] at hr; exact absurd hr h1
    · rfl
  · split_ifs with hi
    · rw [if_pos hi] at hr; exact absurd hr h1
    · rfl
  · split_ifs with hi
    · rw [if_pos hi] at hr; exact absurd hr h1
    · rfl

theorem NoTiny.fcY (h : NoTiny tol m) (y : Cols ν H ε) (hy : fast0 tol (fcY (H := H) m y)) : GenSys.fcY (H := H) m y = 0 := by
  unfold fast0 at hy
  revert hy
  rcases y with (v | b) | e' <;> simp only [GenSys.fcY]
  · cases hfd : m.fd0 with
    | none => simp only; exact h.fc v
    | some fd => simp only [abs_neg]; intro hy; rw [h.fc v hy, neg_zero]
  · intro _; trivial
  · cases hfd : m.fd0 with
    | none => simp only; intro _; trivial
    | some fd => simp only [abs_neg]; intro hy; rw [h.fd fd hfd _ hy, neg_zero]

/-- Columns outside `q` have no lagged coefficients. -/
theorem CCU_zero (h : NoTiny tol m) (hyb : H → ν) {y : Cols ν H ε} (hy : ¬ inq tol m hyb y) (r : Rows E H ε) :
    CCU tol m hyb r y = 0 := by
  unfold inq at hy
  rw [not_or, not_not, not_not] at hy
  rcases r with r | r
  · exact h.CC1 hyb y hy.1 r
  · exact h.fcY y hy.2

theorem CCR_zero (h : NoTiny tol m) (hyb : H → ν) {y : Cols ν H ε} (hy : ¬ inq tol m hyb y) (r : Rows E H ε) :
    CCR tol m hyb r y = 0 := by
  unfold inq at hy
  rw [not_or, not_not, not_not] at hy
  rcases r with r | r
  · exact h.CC1 hyb y hy.1 r
  · rfl

/-- No variable whose lag enters the constraint is forward looking (see C24). -/
def NoLagFwd (m : Input E ν ε o K) : Prop := ∀ v, m.fc0 v ≠ 0 → ∀ e, m.AA0 e v = 0

/-- Columns of `q` have no expectation terms, unless the constraint contains lags of forward-looking variables. -/
theorem AAc_zero (h : NoTiny tol m) (lay : Layout tol m H z p) (hf : NoLagFwd m) {y : Cols ν H ε}
    (hy : inq tol m lay.hyb y) (r : Rows E H ε) : AAc (H := H) m r y = 0 := by
  rcases r with r | r
  · rcases r with (e | a) | e <;> rcases y with (v | b) | e' <;> simp only [AAc, AA1]
    by_contra hne
    have hA : ¬ fast0Col tol m.AA0 v := by
      intro hc; exact hne (h.A _ _ (hc e))
    rcases hy with hy | hy
    · apply hy
      intro r
      rcases r with (e | a) | e <;> simp only [GenSys.CC1, abs_zero, h.pos]
      split_ifs with hi
      · simpa using h.pos
      · unfold inall at hi
        rw [not_and] at hi
        have := hi hA
        rw [not_not] at this
        exact this e
    · apply hy
      have hfc : m.fc0 v = 0 := by
        by_contra hc; exact hne (hf v hc e)
      unfold fast0
      simp only [GenSys.fcY, fcN, hfc, neg_zero, zero_div]
      cases m.fd0 <;> simpa using h.pos
  · rfl

namespace Layout
variable (lay : Layout tol m H z p)

theorem disjoint (i : z) (j : p) : lay.zi i ≠ lay.pi j := by
  intro h
  have h1 := (lay.zi_range (lay.zi i)).1 ⟨i, rfl⟩
  have h2 := (lay.pi_range (lay.pi j)).1 ⟨j, rfl⟩
  rw [h] at h1
  exact h2.2 h1

/-- the map from positions to names -/
def names : z ⊕ p → ν ⊕ H := Sum.elim lay.zi lay.pi

theorem names_inj : Function.Injective lay.names := by
  intro a b h
  rcases a with a | a <;> rcases b with b | b <;> simp only [names, Sum.elim_inl, Sum.elim_inr] at h
  · rw [lay.zi_inj h]
  · exact absurd h (lay.disjoint _ _)
  · exact absurd h.symm (lay.disjoint _ _)
  · rw [lay.pi_inj h]

/-- If there is one more variable than equations, no variable is lost. -/
theorem names_bij (hE : Fintype.card E + 1 = Fintype.card ν) : Function.Bijective lay.names := by
  rw [Fintype.bijective_iff_injective_and_card]
  refine ⟨lay.names_inj, ?_⟩
  have := lay.square
  simp only [Fintype.card_sum, Fintype.card_unit] at this ⊢
  omega

/-- Value of a variable (or auxiliary lag) in a full state. -/
def val (st : p ⊕ z → K) (w : ν ⊕ H) : K :=
  (∑ i, if lay.zi i = w then st (.inr i) else 0) + ∑ j, if lay.pi j = w then st (.inl j) else 0

theorem val_z (st : p ⊕ z → K) (i : z) : lay.val st (lay.zi i) = st (.inr i) := by
  unfold val
  rw [Finset.sum_eq_single i, Finset.sum_eq_zero]
  · simp
  · intro j _; rw [if_neg (fun h => lay.disjoint i j h.symm)]
  · intro b _ hb; rw [if_neg (fun h => hb (lay.zi_inj h))]
  · intro h; exact absurd (Finset.mem_univ _) h

theorem val_p (st : p ⊕ z → K) (j : p) : lay.val st (lay.pi j) = st (.inl j) := by
  unfold val
  rw [Finset.sum_eq_zero, Finset.sum_eq_single j]
  · simp
  · intro b _ hb; rw [if_neg (fun h => hb (lay.pi_inj h))]
  · intro h; exact absurd (Finset.mem_univ _) h
  · intro i _; rw [if_neg (lay.disjoint i j)]

theorem sum_names (hE : Fintype.card E + 1 = Fintype.card ν) (g : ν ⊕ H → K) :
    ∑ w, g w = ∑ i, g (lay.zi i) + ∑ j, g (lay.pi j) := by
  rw [← (lay.names_bij hE).sum_comp g, Fintype.sum_sum_type]
  rfl

end Layout

/-- Contract of `scipy.linalg.rq`: `A = R Q` with `Q` orthogonal and `R` (block) upper triangular. -/
def RQSpec {r q p : Type} [Fintype r] [Fintype q] [Fintype p] [DecidableEq r] [DecidableEq q] [DecidableEq p]
    (A : Matrix (q ⊕ p) r K) (R : Matrix (q ⊕ p) (q ⊕ p) K) (Q : Matrix (q ⊕ p) r K) : Prop :=
  R * Q = A ∧ Qᵀ * Q = 1 ∧ Q * Qᵀ = 1 ∧ ∀ i j, R (.inr i) (.inl j) = 0

/-- The contract of the external routines for a given model. -/
structure OracleOK (lay : Layout tol m H z p) (orc : Oracle (Rows E H ε) (z ⊕ ε) p K) : Prop where
  rqU : RQSpec (MU lay)ᵀ (orc.rq (MU lay)ᵀ).1 (orc.rq (MU lay)ᵀ).2
  rqR : RQSpec (MR lay)ᵀ (orc.rq (MR lay)ᵀ).1 (orc.rq (MR lay)ᵀ).2
  /-- whatever the linear solver returns solves `S [lam; omg lam] = T [1; omg]` -/
  klein : ∀ omg lam, orc.klein (sysOf lay orc).S (sysOf lay orc).T = .ok (omg, lam) → KleinOK (sysOf lay orc) omg lam

theorem rq_undo {r q p : Type} [Fintype r] [Fintype q] [Fintype p] [DecidableEq r] [DecidableEq q] [DecidableEq p]
    {A : Matrix r (q ⊕ p) K} {R : Matrix (q ⊕ p) (q ⊕ p) K} {Q : Matrix (q ⊕ p) r K} (h : RQSpec Aᵀ R Q)
    (B : Matrix r (q ⊕ p) K) (g : r → K) (x y : q ⊕ p → K) :
    (Q * B) *ᵥ x = Rᵀ *ᵥ y + Q *ᵥ g ↔ B *ᵥ x = A *ᵥ y + g := by
  obtain ⟨h1, h2, h3, _⟩ := h
  have hA : A = Qᵀ * Rᵀ := by rw [← transpose_mul, h1, transpose_transpose]
  have hR : Rᵀ = Q * A := by rw [hA, ← Matrix.mul_assoc, h3, Matrix.one_mul]
  constructor
  · intro h
    have := congrArg (fun v => Qᵀ *ᵥ v) h
    simp only [mulVec_add, mulVec_mulVec, ← Matrix.mul_assoc, h2, Matrix.one_mul, one_mulVec, ← hA] at this
    exact this
  · intro h
    rw [← mulVec_mulVec, h, mulVec_add, mulVec_mulVec, hR]

theorem sysOf_T12 {lay : Layout tol m H z p} {orc : Oracle (Rows E H ε) (z ⊕ ε) p K} (h : OracleOK lay orc) :
    (sysOf lay orc).T.toBlocks₁₂ = 0 ∧ (sysOf lay orc).W.toBlocks₁₂ = 0 := by
  constructor
  · ext i j; exact h.rqU.2.2.2 j i
  · ext i j; exact h.rqR.2.2.2 j i

theorem sysOf_slack {lay : Layout tol m H z p} {orc : Oracle (Rows E H ε) (z ⊕ ε) p K} (h : OracleOK lay orc)
    (x y : (z ⊕ ε) ⊕ p → K) :
    (sysOf lay orc).S *ᵥ x = (sysOf lay orc).T *ᵥ y ↔ PU lay *ᵥ x = MU lay *ᵥ y := by
  have := rq_undo h.rqU (PU lay) 0 x y
  rw [mulVec_zero, add_zero, add_zero] at this
  exact this

theorem sysOf_binding {lay : Layout tol m H z p} {orc : Oracle (Rows E H ε) (z ⊕ ε) p K} (h : OracleOK lay orc)
    (x y : (z ⊕ ε) ⊕ p → K) :
    (sysOf lay orc).V *ᵥ x = (sysOf lay orc).W *ᵥ y + (sysOf lay orc).h ↔
      PR lay *ᵥ x = MR lay *ᵥ y + gg (H := H) m :=
  rq_undo h.rqR (PR lay) (gg m) x y

/-- The value of every entry of y-space in a period, given the full state and shocks of that period. -/
def yVec (lay : Layout tol m H z p) (st : p ⊕ z → K) (e : ε → K) : Cols ν H ε → K
  | .inl w => lay.val st w
  | .inr i => e i

/-- full state from the controls and the new `q` -/
def fullState (P : p → K) (Q : z ⊕ ε → K) : p ⊕ z → K := Sum.elim P (fun i => Q (.inl i))

theorem sum_cols (lay : Layout tol m H z p) (hE : Fintype.card E + 1 = Fintype.card ν) (g : Cols ν H ε → K) :
    ∑ y, g y = ∑ j, g (qi lay j) + ∑ j, g (.inl (lay.pi j)) := by
  rw [Fintype.sum_sum_type, lay.sum_names hE, Fintype.sum_sum_type]
  simp only [qi]
  ring

/-- Rows of a reduced system, read as rows of the system in y-space. -/
theorem reduced_row (lay : Layout tol m H z p) (hE : Fintype.card E + 1 = Fintype.card ν)
    (a b c : Cols ν H ε → K) (ha : ∀ y, inq tol m lay.hyb y → a y = 0) (hc : ∀ y, ¬ inq tol m lay.hyb y → c y = 0)
    (P P' : p → K) (Q Q' Q'' : z ⊕ ε → K) (st : p ⊕ z → K) (hst : ∀ i, st (.inr i) = Q (.inl i)) :
    (∑ j, a (.inl (lay.pi j)) * P' j) + ((∑ j, b (qi lay j) * Q' j) + ∑ j, b (.inl (lay.pi j)) * P j)
        + ∑ j, c (qi lay j) * Q j =
      (∑ y, a y * yVec lay (fullState P' Q'') (fun e => Q'' (.inr e)) y) +
      (∑ y, b y * yVec lay (fullState P Q') (fun e => Q' (.inr e)) y) +
      ∑ y, c y * yVec lay st (fun e => Q (.inr e)) y := by
  have hq : ∀ j, inq tol m lay.hyb (qi lay j) := by
    rintro (i | e)
    · exact (lay.zi_range _).1 ⟨i, rfl⟩
    · exact lay.shocks e
  have hp : ∀ j, ¬ inq tol m lay.hyb (.inl (lay.pi j)) := fun j => ((lay.pi_range _).1 ⟨j, rfl⟩).2
  have hyq : ∀ (P : p → K) (Q : z ⊕ ε → K) j, yVec lay (fullState P Q) (fun e => Q (.inr e)) (qi lay j) = Q j := by
    rintro P Q (i | e)
    · simp only [qi, yVec, lay.val_z, fullState, Sum.elim_inr]
    · rfl
  have hyp : ∀ (P : p → K) (Q : z ⊕ ε → K) j, yVec lay (fullState P Q) (fun e => Q (.inr e)) (.inl (lay.pi j)) = P j := by
    intro P Q j
    simp only [yVec, lay.val_p, fullState, Sum.elim_inl]
  have hys : ∀ j, yVec lay st (fun e => Q (.inr e)) (qi lay j) = Q j := by
    rintro (i | e)
    · simp only [qi, yVec, lay.val_z, hst]
    · rfl
  rw [sum_cols lay hE, sum_cols lay hE, sum_cols lay hE]
  simp only [hyq, hyp, hys]
  have e1 : ∑ j, a (qi lay j) * Q'' j = 0 := Finset.sum_eq_zero fun j _ => by rw [ha _ (hq j), zero_mul]
  have e2 : ∑ j, c (.inl (lay.pi j)) * yVec lay st (fun e => Q (.inr e)) (.inl (lay.pi j)) = 0 :=
    Finset.sum_eq_zero fun j _ => by rw [hc _ (hp j), zero_mul]
  rw [e1, e2]
  ring

end Pydsge.GenSys
