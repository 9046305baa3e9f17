import Verif.Props.ConLag
import Verif.Lemmas.NonSingular
import Mathlib.Data.Rat.Defs
import Mathlib.Algebra.Order.Ring.Rat
import Mathlib.Algebra.Order.Field.Rat
import Mathlib.Tactic.NormNum
import Mathlib.Tactic.FinCases
import Mathlib.Tactic.FieldSimp
import Mathlib.Tactic.Positivity

/-!
# A model with lags, shocks and the constrained variable itself in the constraint

`y = 3/4 y(-1) - r(+1) + e`, constraint `r = max(1/2 r + 1/2 y + 7/40 y(-1) + 1/5 e, b)`.  What is solved is
`r = y - 7/20 y(-1) + 1/5 e` (and not the declared `r = y + 7/20 y(-1) + 2/5 e`): the linear solution is
`y = 3/5 y(-1) + 4/5 e`, `r = 1/4 y(-1) + e`.  The same steps as in `Verif.Examples.Ex1`.
-/

set_option autoImplicit false
set_option linter.unusedSimpArgs false

namespace Pydsge.Ex9

open Matrix Pydsge.Engine Pydsge.Spec Pydsge.Tools Pydsge.GenSys

variable {b : Rat}

/-- variables: `0 = y`, `1 = r` -/
def declB (b : Rat) : Declared (Fin 1) (Fin 2) (Fin 1) Rat where
  A := fun _ v => if v = 1 then 1 else 0
  B := fun _ v => if v = 0 then 1 else 0
  C := fun _ v => if v = 0 then -3/4 else 0
  D := fun _ _ => -1
  cvar := 1
  rb := fun _ => 1/2
  rc := fun v => if v = 0 then 7/40 else 0
  rd := fun _ => 1/5
  xbar := b

/-- one observable: `1 - 2 y` -/
def Z0 : Matrix (Fin 1) (Fin 2) Rat := fun _ v => if v = 0 then -2 else 0
def Z1 : Fin 1 → Rat := fun _ => 1

abbrev inpB (b : Rat) : Input (Fin 1) (Fin 2) (Fin 1) (Fin 1) Rat := yaml (declB b) Z0 Z1

def tol : Rat := 1 / 1000

theorem not_inall (v : Fin 2) : ¬ inall tol (inpB b) v := by
  rintro ⟨h1, h2⟩
  fin_cases v
  · apply h1; intro i
    simp [yaml, Input.ofYaml, declB, tol]
  · apply h2; intro i
    simp [yaml, Input.ofYaml, declB, tol]

instance : DecidablePred (inall tol (inpB b)) := fun v => .isFalse (not_inall v)

def hyb : Fin 0 → Fin 2 := Fin.elim0

theorem CC1_v (e : Fin 1) (v : Fin 2) : CC1 tol (inpB b) hyb (.inl (.inl e)) (.inl (.inl v)) = if v = 0 then -3/4 else 0 := by
  show (if inall tol (inpB b) v then 0 else _) = _
  rw [if_neg (not_inall v)]
  rfl

theorem CC1_e (e e' : Fin 1) : CC1 tol (inpB b) hyb (.inl (.inl e)) (.inr e') = -1 := rfl

theorem inq_y : inq tol (inpB b) hyb (.inl (.inl 0)) := by
  left
  intro h
  have := h (.inl (.inl 0))
  rw [CC1_v] at this
  norm_num [abs_lt, tol] at this

theorem inq_e (e : Fin 1) : inq tol (inpB b) hyb (.inr e) := by
  left
  intro h
  have := h (.inl (.inl 0))
  rw [CC1_e] at this
  norm_num [abs_lt, tol] at this

theorem not_inq_r : ¬ inq tol (inpB b) hyb (.inl (.inl 1)) := by
  rintro (h | h)
  · apply h
    rintro ((r | r) | r)
    · rw [CC1_v]; norm_num [tol]
    · exact r.elim0
    · simp [CC1, tol]
  · apply h
    simp [fast0, fcY, fcN, yaml, Input.ofYaml, declB, tol]

theorem inp_r : inp tol (inpB b) hyb (.inl (.inl 1)) := by
  refine ⟨Or.inl ?_, not_inq_r⟩
  intro h
  have := h (.inl (.inl 0))
  simp [AA1, yaml, Input.ofYaml, declB, tol] at this
  norm_num at this

/-- the masks: `y` is a state, `r` a control -/
def layB (b : Rat) : Layout tol (inpB b) (Fin 0) (Fin 1) (Fin 1) where
  hyb := hyb
  zi := fun _ => .inl 0
  pi := fun _ => .inl 1
  hyb_inj := fun a => a.elim0
  hyb_range := fun v => ⟨fun ⟨h, _⟩ => h.elim0, fun h => absurd h (not_inall v)⟩
  zi_inj := fun a b _ => Subsingleton.elim a b
  zi_range := by
    rintro (v | h)
    · fin_cases v
      · exact ⟨fun _ => inq_y, fun _ => ⟨0, rfl⟩⟩
      · refine ⟨?_, fun h => absurd h not_inq_r⟩
        rintro ⟨i, h⟩; simp at h
    · exact h.elim0
  pi_inj := fun a b _ => Subsingleton.elim a b
  pi_range := by
    rintro (v | h)
    · fin_cases v
      · refine ⟨?_, fun h => absurd inq_y h.2⟩
        rintro ⟨i, h⟩; simp at h
      · exact ⟨fun _ => inp_r, fun _ => ⟨0, rfl⟩⟩
    · exact h.elim0
  shocks := inq_e
  square := rfl

abbrev R := Rows (Fin 1) (Fin 0) (Fin 1)
abbrev Q := Fin 1 ⊕ Fin 1

/-- the orthogonal factor: a permutation of the rows (equation, shock, constraint) -/
def Qm : Matrix (Q ⊕ Fin 1) R Rat
  | .inl (.inl _), .inl (.inr _) => 1
  | .inl (.inr _), .inl (.inl _) => 1
  | .inr _, .inr _ => 1
  | _, _ => 0

def omg : Matrix (Fin 1) Q Rat := fun _ j => match j with
  | .inl _ => 1/4
  | .inr _ => 1

def lam : Matrix Q Q Rat := fun i j => match i, j with
  | .inl _, .inl _ => 3/5
  | .inl _, .inr _ => 4/5
  | .inr _, _ => 0

/-- external routines that fulfil their contracts for this model -/
def orc : Oracle R Q (Fin 1) Rat where
  rq := fun A => (A * Qmᵀ, Qm)
  klein := fun _ _ => .ok (omg, lam)

theorem QQt : Qm * Qmᵀ = 1 := by
  ext i j
  rcases i with (i | i) | i <;> rcases j with (j | j) | j <;>
    simp [Matrix.mul_apply, Fintype.sum_sum_type, Qm, Matrix.one_apply] <;> exact Subsingleton.elim _ _

theorem QtQ : Qmᵀ * Qm = 1 := by
  ext i j
  rcases i with ((i | i) | i) | i <;> rcases j with ((j | j) | j) | j <;>
    first | exact i.elim0 | exact j.elim0 | (simp [Matrix.mul_apply, Fintype.sum_sum_type, Qm, Matrix.one_apply] <;> exact Subsingleton.elim _ _) | simp [Matrix.mul_apply, Fintype.sum_sum_type, Qm, Matrix.one_apply]

/-- entries of the system matrices -/
def Sm : Matrix (Q ⊕ Fin 1) (Q ⊕ Fin 1) Rat
  | .inl (.inl _), .inl (.inr _) => -1
  | .inl (.inr _), .inl (.inl _) => -1
  | .inl (.inr _), .inr _ => -1
  | .inr _, .inl (.inl _) => -1
  | _, _ => 0

def Tm : Matrix (Q ⊕ Fin 1) (Q ⊕ Fin 1) Rat
  | .inl (.inr _), .inl (.inl _) => -3/4
  | .inl (.inr _), .inl (.inr _) => -1
  | .inr _, .inl (.inl _) => -7/20
  | .inr _, .inl (.inr _) => 1/5
  | .inr _, .inr _ => -1
  | _, _ => 0

def Wm : Matrix (Q ⊕ Fin 1) (Q ⊕ Fin 1) Rat
  | .inl (.inr _), .inl (.inl _) => -3/4
  | .inl (.inr _), .inl (.inr _) => -1
  | .inr _, .inr _ => -1
  | _, _ => 0

def Vm : Matrix (Q ⊕ Fin 1) (Q ⊕ Fin 1) Rat
  | .inl (.inl _), .inl (.inr _) => -1
  | .inl (.inr _), .inl (.inl _) => -1
  | .inl (.inr _), .inr _ => -1
  | _, _ => 0

def hmB (b : Rat) : Q ⊕ Fin 1 → Rat
  | .inr _ => b
  | _ => 0

theorem sys_S : (sysOf (layB b) orc).S = Sm := by
  ext i j
  rcases i with (i | i) | i <;> rcases j with (j | j) | j <;>
    simp [sysOf, orc, Matrix.mul_apply, Fintype.sum_sum_type, Qm, PU, BBU, AAc, AA1, BB1, fbY, fbN, qi, layB, Sm,
      yaml, Input.ofYaml, declB, Subsingleton.elim i 0, Subsingleton.elim j 0] <;> norm_num

theorem sys_V : (sysOf (layB b) orc).V = Vm := by
  ext i j
  rcases i with (i | i) | i <;> rcases j with (j | j) | j <;>
    simp [sysOf, orc, Matrix.mul_apply, Fintype.sum_sum_type, Qm, PR, BBR, AAc, AA1, BB1, fbY, fbN, qi, layB, Vm,
      yaml, Input.ofYaml, declB, Subsingleton.elim i 0, Subsingleton.elim j 0]

theorem CCU_v (e : Fin 1) (v : Fin 2) : CCU tol (inpB b) hyb (.inl (.inl (.inl e))) (.inl (.inl v)) = if v = 0 then -3/4 else 0 :=
  CC1_v e v

theorem CCR_v (e : Fin 1) (v : Fin 2) : CCR tol (inpB b) hyb (.inl (.inl (.inl e))) (.inl (.inl v)) = if v = 0 then -3/4 else 0 :=
  CC1_v e v

theorem lay_hyb : (layB b).hyb = hyb := rfl

theorem MU_y (e j : Fin 1) : MU (layB b) (.inl (.inl (.inl e))) (.inl (.inl j)) = -3/4 := CCU_v e 0

theorem MR_y (e j : Fin 1) : MR (layB b) (.inl (.inl (.inl e))) (.inl (.inl j)) = -3/4 := CCR_v e 0

theorem sys_T : (sysOf (layB b) orc).T = Tm := by
  ext i j
  rcases i with (i | i) | i <;> rcases j with (j | j) | j <;>
    simp [sysOf, orc, Matrix.mul_apply, Fintype.sum_sum_type, Qm, MU_y] <;>
    simp [MU, BBU, CCU, CC1, BB1, fbY, fbN, fcY, fcN, qi, layB, Tm,
      yaml, Input.ofYaml, declB, not_inall, Subsingleton.elim i 0, Subsingleton.elim j 0] <;> norm_num

theorem sys_W : (sysOf (layB b) orc).W = Wm := by
  ext i j
  rcases i with (i | i) | i <;> rcases j with (j | j) | j <;>
    simp [sysOf, orc, Matrix.mul_apply, Fintype.sum_sum_type, Qm, MR_y] <;>
    simp [MR, BBR, CCR, CC1, BB1, fbY, fbN, fcY, fcN, qi, layB, Wm,
      yaml, Input.ofYaml, declB, not_inall, Subsingleton.elim i 0, Subsingleton.elim j 0]

theorem sys_h : (sysOf (layB b) orc).h = (hmB b) := by
  ext i
  rcases i with (i | i) | i <;>
    simp [sysOf, orc, mulVec, dotProduct, Fintype.sum_sum_type, Qm, gg, hmB, yaml, Input.ofYaml, declB]

theorem rq_spec (A : Matrix (Q ⊕ Fin 1) R Rat) (h : ∀ i j, (A * Qmᵀ) (.inr i) (.inl j) = 0) : RQSpec A (A * Qmᵀ) Qm :=
  ⟨by rw [Matrix.mul_assoc, QtQ, Matrix.mul_one], QtQ, QQt, h⟩

theorem oracleOK : OracleOK (layB b) orc where
  rqU := by
    apply rq_spec
    intro i j
    have := congrFun (congrFun (sys_T (b := b)) (.inl j)) (.inr i)
    rcases j with j | j <;> exact this
  rqR := by
    apply rq_spec
    intro i j
    have := congrFun (congrFun (sys_W (b := b)) (.inl j)) (.inr i)
    rcases j with j | j <;> exact this
  klein := by
    intro o l h
    simp only [orc, Except.ok.injEq, Prod.mk.injEq] at h
    obtain ⟨rfl, rfl⟩ := h
    intro q0
    rw [sys_S, sys_T]
    funext i
    rcases i with (i | i) | i <;>
      simp [mulVec, dotProduct, Fintype.sum_sum_type, Sm, Tm, omg, lam, Matrix.mul_apply, -mulVec_mulVec] <;> ring

theorem noTiny : NoTiny tol (inpB b) where
  pos := by norm_num [tol]
  le_one := by norm_num [tol]
  A := by
    intro i j h; fin_cases j <;> simp [yaml, Input.ofYaml, declB, tol] at h ⊢ <;> norm_num at h
  B := by
    intro i j h; fin_cases j <;> simp [yaml, Input.ofYaml, declB, tol] at h ⊢ <;> norm_num at h
  C := by
    intro i j h; fin_cases j <;> simp [yaml, Input.ofYaml, declB, tol] at h ⊢ <;> norm_num [abs_lt] at h
  D := by
    intro i j h; simp [yaml, Input.ofYaml, declB, tol] at h ⊢ <;> norm_num at h
  fc := by
    intro j h
    fin_cases j
    · simp [fcN, yaml, Input.ofYaml, declB, tol] at h
      norm_num [abs_lt] at h
    · simp [fcN, yaml, Input.ofYaml, declB]
  fd := by
    intro fd h j hj
    simp only [yaml, Input.ofYaml, declB, Option.some.injEq] at h
    subst h
    norm_num [tol, abs_lt] at hj

/-- the matrices after normalisation -/
def Sn : Matrix (Q ⊕ Fin 1) (Q ⊕ Fin 1) Rat
  | .inl (.inl _), .inl (.inr _) => -1
  | .inl (.inr _), .inl (.inl _) => -1
  | .inl (.inr _), .inr _ => -1
  | .inr _, .inl (.inl _) => 1
  | _, _ => 0

def Tn : Matrix (Q ⊕ Fin 1) (Q ⊕ Fin 1) Rat
  | .inl (.inr _), .inl (.inl _) => -3/4
  | .inl (.inr _), .inl (.inr _) => -1
  | .inr _, .inl (.inl _) => 7/20
  | .inr _, .inl (.inr _) => -1/5
  | .inr _, .inr _ => 1
  | _, _ => 0

def Wn : Matrix (Q ⊕ Fin 1) (Q ⊕ Fin 1) Rat
  | .inl (.inr _), .inl (.inl _) => -3/4
  | .inl (.inr _), .inl (.inr _) => -1
  | .inr _, .inr _ => 1
  | _, _ => 0

def hnB (b : Rat) : Q ⊕ Fin 1 → Rat
  | .inr _ => -b
  | _ => 0

def sysB (b : Rat) : Sys Q (Fin 1) Rat := ⟨Sn, Tn, Vm, Wn, (hnB b)⟩

theorem norm_ok : normalise (sysOf (layB b) orc) = .ok (sysB b) := by
  have hinv : npInv (Tm.toBlocks₂₂) = .ok (-1 : Matrix (Fin 1) (Fin 1) Rat) := by
    apply npInv_eq_of_mul
    ext i j
    simp [Matrix.mul_apply, toBlocks₂₂, Tm, Matrix.one_apply, Subsingleton.elim i 0, Subsingleton.elim j 0]
  unfold normalise
  have hinv' : npInv (Wm.toBlocks₂₂) = .ok (-1 : Matrix (Fin 1) (Fin 1) Rat) := hinv
  rw [sys_T, sys_W, sys_S, sys_V, sys_h, hinv, hinv']
  simp only [Except.ok.injEq, sysB, Sys.mk.injEq]
  refine ⟨?_, ?_, ?_, ?_, ?_⟩
  · ext i j
    rcases i with (i | i) | i <;> rcases j with (j | j) | j <;>
      simp [lowerRows, toBlocks₁₁, toBlocks₁₂, toBlocks₂₁, toBlocks₂₂, Sm, Sn]
  · ext i j
    rcases i with (i | i) | i <;> rcases j with (j | j) | j <;>
      simp [lowerRows, toBlocks₁₁, toBlocks₁₂, toBlocks₂₁, toBlocks₂₂, Tm, Tn] <;> norm_num
  · ext i j
    rcases i with (i | i) | i <;> rcases j with (j | j) | j <;>
      simp [lowerRows, toBlocks₁₁, toBlocks₁₂, toBlocks₂₁, toBlocks₂₂, Vm]
  · ext i j
    rcases i with (i | i) | i <;> rcases j with (j | j) | j <;>
      simp [lowerRows, toBlocks₁₁, toBlocks₁₂, toBlocks₂₁, toBlocks₂₂, Wm, Wn]
  · ext i
    rcases i with (i | i) | i <;> simp [lowerVec, hmB, hnB, neg_mulVec]

/-- the coefficient of `r` on lagged `y` is between `0` and `2/5` -/
def Inv (c : Cell Q (Fin 1) Rat) : Prop := 0 ≤ c.pmat 0 (.inl 0) ∧ c.pmat 0 (.inl 0) ≤ 2/5

/-- inverse of the matrix in `get_lam` -/
def invM (a b : Rat) : Matrix Q Q Rat := fun i j => match i, j with
  | .inl _, .inl _ => b / (1 + a)
  | .inl _, .inr _ => -1 / (1 + a)
  | .inr _, .inl _ => -1
  | .inr _, .inr _ => 0

theorem lower_blocks (l : Nat) : (if l ≠ 0 then (sysB b).S else (sysB b).V).toBlocks₁₁ = Sn.toBlocks₁₁ ∧
    (if l ≠ 0 then (sysB b).S else (sysB b).V).toBlocks₁₂ = Sn.toBlocks₁₂ := by
  by_cases h : l ≠ 0
  · simp [h, sysB]
  · simp only [h, if_false, sysB, and_true]
    constructor <;> ext i j <;> rcases i with i | i <;> try rcases j with j | j
    all_goals simp [toBlocks₁₁, toBlocks₁₂, Vm, Sn]

theorem inv_ok (l : Nat) (c : Cell Q (Fin 1) Rat) (h : Inv c) :
    npInv ((if l ≠ 0 then (sysB b).S else (sysB b).V).toBlocks₁₁ + (if l ≠ 0 then (sysB b).S else (sysB b).V).toBlocks₁₂ * c.pmat) =
      .ok (invM (c.pmat 0 (.inl 0)) (c.pmat 0 (.inr 0))) := by
  rw [(lower_blocks l).1, (lower_blocks l).2]
  apply npInv_eq_of_mul
  have hne : (1 + c.pmat 0 (.inl 0)) ≠ 0 := by have := h.1; positivity
  ext i j
  rcases i with i | i <;> rcases j with j | j <;>
    simp [Matrix.mul_apply, Fintype.sum_sum_type, toBlocks₁₁, toBlocks₁₂, Sn, invM, Matrix.one_apply,
      Subsingleton.elim i 0, Subsingleton.elim j 0]
  all_goals field_simp
  all_goals ring

theorem step_ok (l : Nat) (c : Cell Q (Fin 1) Rat) (h : Inv c) :
    ∃ c', stepCell (sysB b) l c = .ok c' ∧ Inv c' := by
  unfold stepCell getLam
  dsimp only
  rw [inv_ok l c h]
  refine ⟨_, rfl, ?_⟩
  have hpos : 0 < (1 + c.pmat 0 (.inl 0)) := by have := h.1; positivity
  unfold Inv getOmg
  dsimp only
  by_cases hl : l ≠ 0
  · simp [hl, sysB, Matrix.mul_apply, Fintype.sum_sum_type, toBlocks₁₁, toBlocks₂₁, toBlocks₂₂, Sn, Tn, invM]
    have h1 := h.1
    have h2 := h.2
    have e : -1 / (1 + c.pmat 0 (Sum.inl 0)) * (-3 / 4 : Rat) = 3 / 4 / (1 + c.pmat 0 (Sum.inl 0)) := by ring
    rw [e]
    constructor
    · rw [le_div_iff₀ hpos]; linarith
    · have : 3 / 4 / (1 + c.pmat 0 (Sum.inl 0)) ≤ 3 / 4 := by rw [div_le_iff₀ hpos]; linarith
      linarith
  · simp [hl, sysB, Matrix.mul_apply, Fintype.sum_sum_type, toBlocks₁₁, toBlocks₂₁, toBlocks₂₂, Vm, Wn, invM]
    norm_num

/-- `set_par` succeeds for this model, for all `l_max`, `k_max` and schedules. -/
theorem succeeds (lMax kMax : Nat) {sched : Nat → List Nat} (hs : ∀ l < lMax + 1, (sched l).Perm (List.range (kMax + 1))) :
    ∃ mod, Succeeded (layB b) orc lMax kMax sched mod := by
  obtain ⟨t, ht⟩ := preprocess_succeeds (ff (layB b)) (omg := omg) (lam := lam) norm_ok Inv (by unfold Inv; norm_num [omg])
    step_ok lMax kMax hs
  refine ⟨⟨t, omg, lam, (inpB b).xbar, ff (layB b), (lMax, kMax), hx (layB b)⟩, ?_, hs, oracleOK, noTiny, rfl, ⟨0⟩⟩
  unfold genSys
  dsimp only
  rw [show orc.klein (sysOf (layB b) orc).S (sysOf (layB b) orc).T = .ok (omg, lam) from rfl]
  dsimp only
  rw [ht]

theorem serial_perm (lMax kMax : Nat) : ∀ l < lMax + 1, (serial kMax l).Perm (List.range (kMax + 1)) :=
  fun _ _ => List.Perm.refl _

/-! The model with bound `-1`. -/

abbrev decl := declB (-1)
abbrev inp' := inpB (-1)
abbrev lay := layB (-1)
abbrev sysN := sysB (-1)

/-- the first cell with a binding constraint -/
def cell01 (b : Rat) : Cell Q (Fin 1) Rat where
  pmat := 0
  pterm := fun _ => b
  qmat := lam
  qterm := 0

theorem step01 : stepCell (sysB b) 0 ⟨omg, 0, lam, 0⟩ = .ok (cell01 b) := by
  have h0 : Inv ⟨omg, 0, lam, 0⟩ := by unfold Inv; norm_num [omg]
  have := inv_ok (b := b) 0 ⟨omg, 0, lam, 0⟩ h0
  simp only [ne_eq, not_true_eq_false, if_false] at this
  unfold stepCell getLam
  simp only [ne_eq, not_true_eq_false, if_false]
  rw [this]
  simp only [getOmg, ne_eq, not_true_eq_false, if_false, Except.ok.injEq, cell01, Cell.mk.injEq]
  have e1 : (invM (omg 0 (.inl 0)) (omg 0 (.inr 0)) * (sysB b).W.toBlocks₁₁) = lam := by
    ext i j
    rcases i with i | i <;> rcases j with j | j <;>
      simp [Matrix.mul_apply, Fintype.sum_sum_type, invM, sysB, toBlocks₁₁, Wn, lam, omg] <;> norm_num
  have e2 : (sysB b).V.toBlocks₂₁ + (sysB b).V.toBlocks₂₂ * omg = 0 := by
    ext i j
    rcases j with j | j <;> simp [Matrix.mul_apply, sysB, toBlocks₂₁, toBlocks₂₂, Vm]
  have e3 : (fun i => (sysB b).h (Sum.inl i) : Q → Rat) - (sysB b).V.toBlocks₁₂ *ᵥ (0 : Fin 1 → Rat) = 0 := by
    ext i
    rcases i with i | i <;> simp [sysB, hnB]
  refine ⟨?_, ?_, ?_, ?_⟩
  · rw [e2]
    ext i j
    rcases j with j | j <;> simp [sysB, toBlocks₂₁, Wn]
  · rw [e2]
    ext i
    simp [sysB, hnB]
  · exact e1
  · rw [e3, mulVec_zero]

theorem fp1_eq : (ff (layB b)).fp1 = 0 := by
  ext i; simp [ff, layB, yaml, Input.ofYaml, declB]

theorem fq1_eq : (ff (layB b)).fq1 = fun j => match j with | .inl _ => 1 | .inr _ => 0 := by
  ext i
  rcases i with i | i <;> simp [ff, qi, layB, fbY, fbN, yaml, Input.ofYaml, declB] <;> norm_num

theorem fq0_eq : (ff (layB b)).fq0 = fun j => match j with | .inl _ => -7/20 | .inr _ => 1/5 := by
  ext i
  rcases i with i | i <;> simp [ff, qi, layB, fcY, fcN, yaml, Input.ofYaml, declB] <;> norm_num

theorem cells {lMax kMax : Nat} {mod : Model (Fin 1) (Fin 1) (Fin 1) (Fin 1) Rat} {c : Nat → Nat → Cell Q (Fin 1) Rat}
    (hk : 1 ≤ kMax) (h : SolvedModel (layB b) orc lMax kMax mod c) : c 0 0 = ⟨omg, 0, lam, 0⟩ ∧ c 0 1 = cell01 b := by
  obtain ⟨M', hS⟩ := h.eng
  have hM : M' = sysB b := by
    have := hS.norm
    rw [norm_ok] at this
    simpa using this.symm
  have hkl := h.kl
  simp only [orc, Except.ok.injEq, Prod.mk.injEq] at hkl
  have h0 := hS.complete.start
  rw [← hkl.1, ← hkl.2] at h0
  refine ⟨h0, ?_⟩
  have h1 := hS.complete.step 0 1 (by omega) (by omega) (by simp)
  rw [lastIdx_zero, hM] at h1
  simp only [Nat.sub_self, h0, step01, Except.ok.injEq] at h1
  exact h1.symm

/-- A large negative shock from the steady state: the search returns `(0,1)` with flag 0, and `r = -1`, `y = -8/5`. -/
theorem binding_run (lMax kMax : Nat) (hk : 1 ≤ kMax) (hL : lMax + 1 ≤ 999) {sched : Nat → List Nat}
    {mod : Model (Fin 1) (Fin 1) (Fin 1) (Fin 1) Rat} (h : Succeeded lay orc lMax kMax sched mod) :
    ∃ r, tFunc mod 0 (fun _ => -2) .none false = .ok r ∧ r.l = 0 ∧ r.k = 1 ∧ r.flag = 0 ∧
      r.state (.inl 0) = -1 ∧ r.state (.inr 0) = -8/5 := by
  obtain ⟨c, hm⟩ := genSys_ok h.perm h.gen
  obtain ⟨M', hS⟩ := hm.eng
  obtain ⟨c0, c1⟩ := cells hk hm
  have hxb : mod.xbar = -1 := hm.xbar
  set q0 : Q → Rat := q0Of (0 : Fin 1 ⊕ Fin 1 → Rat) (fun _ => -2) with hq0
  have hl0 : lam *ᵥ q0 = fun j => match j with | .inl _ => -8/5 | .inr _ => 0 := by
    ext i
    rcases i with i | i <;> simp [mulVec, dotProduct, Fintype.sum_sum_type, lam, hq0, q0Of] <;> norm_num
  have hl1 : lam *ᵥ (lam *ᵥ q0) = fun j => match j with | .inl _ => -24/25 | .inr _ => 0 := by
    rw [hl0]
    ext i
    rcases i with i | i <;> simp [mulVec, dotProduct, Fintype.sum_sum_type, lam] <;> norm_num
  rw [hl0] at hl1
  have v00 : pathValue (ff lay) c q0 0 0 0 = -2 := by
    simp only [pathValue, fp1_eq, fq0_eq, fq1_eq, zero_dotProduct, qPath, locCell, lLoc, kLoc, Nat.sub_self, Nat.add_zero,
      Nat.min_self, c0, hl0, add_zero]
    simp [dotProduct, Fintype.sum_sum_type, hq0, q0Of] <;> norm_num
  have v01 : pathValue (ff lay) c q0 0 1 0 = -2 := by
    simp only [pathValue, fp1_eq, fq0_eq, fq1_eq, zero_dotProduct, qPath, locCell, lLoc, kLoc, Nat.sub_self, Nat.add_zero,
      Nat.sub_zero, Nat.min_self, c1, cell01, hl0, add_zero]
    simp [dotProduct, Fintype.sum_sum_type, hq0, q0Of] <;> norm_num
  have v41 : pathValue (ff lay) c q0 0 1 1 = -2/5 := by
    simp only [pathValue, fp1_eq, fq0_eq, fq1_eq, zero_dotProduct, qPath, locCell, lLoc, kLoc, Nat.sub_self, Nat.add_zero,
      Nat.sub_zero, Nat.zero_sub, Nat.min_self, c0, c1, cell01, hl0, hl1, add_zero, Nat.zero_le, Nat.min_eq_right]
    simp [dotProduct, Fintype.sum_sum_type, hq0, q0Of] <;> norm_num
  have hcons : Consistent (fun i l k => pathValue (ff lay) c q0 l k (slotPeriod l k i)) mod.xbar 0 1 := by
    refine ⟨le_rfl, by omega, by omega, ?_, ?_, by omega⟩
    · simp only [slotPeriod, Nat.zero_add, v41, hxb]; norm_num
    · simp only [slotPeriod, v01, hxb]; norm_num
  rcases findLk_spec (xbar := mod.xbar) (checkCnst_reads hS q0) (by omega) hL (by omega) with h1 | ⟨_, l, k, h1, h2⟩ | ⟨_, h1, _⟩
  · have := h1.1 0 (by omega)
    simp only [slotPeriod, v00, hxb] at this
    norm_num at this
  · obtain ⟨g1, g2, g3, g4⟩ := h1
    have hlk : l = 0 ∧ k = 1 := by
      have := g4 0 1 (by omega) (by omega) hcons
      have hb := g3.binds
      unfold LexLt at this
      simp only at this
      omega
    obtain ⟨rfl, rfl⟩ := hlk
    refine ⟨_, tFunc_find hm 0 (fun _ => -2) h2 (by omega) (by omega), rfl, rfl, rfl, ?_, ?_⟩
    · simp only [xPath_zero, c1, Sum.elim_inl, cell01, zero_mulVec, zero_add]
    · simp only [xPath_zero, c1, Sum.elim_inr, cell01, add_zero, ← hq0, hl0]
  · exact absurd hcons (h1 0 1 (by omega) (by omega))

end Pydsge.Ex9
