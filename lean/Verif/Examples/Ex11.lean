import Verif.Props.Solution
import Verif.Lemmas.NonSingular
import Mathlib.Data.Rat.Defs
import Mathlib.Algebra.Order.Ring.Rat
import Mathlib.Algebra.Order.Field.Rat
import Mathlib.Tactic.NormNum
import Mathlib.Tactic.FinCases
import Mathlib.Tactic.FieldSimp
import Mathlib.Tactic.Positivity

/-!
# A concrete model with a shock in the constraint

`y = 3/4 y(-1) - r(+1) + e₁`, `r = max(y + e₂, b)`.  The second shock moves `r` on impact only.  The linear solution is
`y = 1/2 y(-1) + 2/3 e₁`, `r = y + e₂`. The shocks are `false` and `true`.
-/

set_option autoImplicit false
set_option linter.unusedSimpArgs false

namespace Pydsge.Ex11

open Matrix Pydsge.Engine Pydsge.Spec Pydsge.Tools Pydsge.GenSys

variable {b : Rat}

/-- variables: `0 = y`, `1 = r` -/
def declB (b : Rat) : Declared (Fin 1) (Fin 2) Bool Rat where
  A := fun _ v => if v = 1 then 1 else 0
  B := fun _ v => if v = 0 then 1 else 0
  C := fun _ v => if v = 0 then -3/4 else 0
  D := fun _ e => if e then 0 else -1
  cvar := 1
  rb := fun v => if v = 0 then 1 else 0
  rc := 0
  rd := fun e => if e then 1 else 0
  xbar := b

/-- one observable: `1 - 2 y` -/
def Z0 : Matrix (Fin 1) (Fin 2) Rat := fun _ v => if v = 0 then -2 else 0
def Z1 : Fin 1 → Rat := fun _ => 1

abbrev inpB (b : Rat) : Input (Fin 1) (Fin 2) Bool (Fin 1) Rat := yaml (declB b) Z0 Z1

def tol : Rat := 1 / 1000

theorem fin1 (i : Fin 1) : i = 0 := Subsingleton.elim i 0

theorem not_inall (v : Fin 2) : ¬ inall tol (inpB b) v := by
  rintro ⟨h1, h2⟩
  fin_cases v
  · apply h1; intro i
    simp [yaml, Input.ofYaml, declB, tol]
  · apply h2; intro i
    simp [yaml, Input.ofYaml, declB, tol]

instance : DecidablePred (inall tol (inpB b)) := fun v => .isFalse (not_inall v)

def hyb : Fin 0 → Fin 2 := Fin.elim0

theorem CC1_v (e : Fin 1) (v : Fin 2) : CC1 tol (inpB b) hyb (.inl (.inl e)) (.inl (.inl v)) = if v = 0 then -3/4 else 0 := by
  show (if inall tol (inpB b) v then 0 else _) = _
  rw [if_neg (not_inall v)]
  rfl

theorem CC1_e (e : Fin 1) (e' : Bool) : CC1 tol (inpB b) hyb (.inl (.inl e)) (.inr e') = if e' then 0 else -1 := rfl

theorem inq_y : inq tol (inpB b) hyb (.inl (.inl 0)) := by
  left
  intro h
  have := h (.inl (.inl 0))
  rw [CC1_v] at this
  norm_num [abs_lt, tol] at this

theorem inq_e (e : Bool) : inq tol (inpB b) hyb (.inr e) := by
  cases e
  · left
    intro h
    have := h (.inl (.inl 0))
    rw [CC1_e] at this
    norm_num [abs_lt, tol] at this
  · right
    intro h
    simp [fast0, fcY, fcN, yaml, Input.ofYaml, declB, tol] at h
    norm_num at h

theorem not_inq_r : ¬ inq tol (inpB b) hyb (.inl (.inl 1)) := by
  rintro (h | h)
  · apply h
    rintro ((r | r) | r)
    · rw [CC1_v]; norm_num [tol]
    · exact r.elim0
    · simp [CC1, tol]
  · apply h
    simp [fast0, fcY, fcN, yaml, Input.ofYaml, declB, tol]

theorem inp_r : inp tol (inpB b) hyb (.inl (.inl 1)) := by
  refine ⟨Or.inl ?_, not_inq_r⟩
  intro h
  have := h (.inl (.inl 0))
  simp [AA1, yaml, Input.ofYaml, declB, tol] at this
  norm_num at this

/-- the masks: `y` is a state, `r` a control -/
def layB (b : Rat) : Layout tol (inpB b) (Fin 0) (Fin 1) (Fin 1) where
  hyb := hyb
  zi := fun _ => .inl 0
  pi := fun _ => .inl 1
  hyb_inj := fun a => a.elim0
  hyb_range := fun v => ⟨fun ⟨h, _⟩ => h.elim0, fun h => absurd h (not_inall v)⟩
  zi_inj := fun a b _ => Subsingleton.elim a b
  zi_range := by
    rintro (v | h)
    · fin_cases v
      · exact ⟨fun _ => inq_y, fun _ => ⟨0, rfl⟩⟩
      · refine ⟨?_, fun h => absurd h not_inq_r⟩
        rintro ⟨i, h⟩; simp at h
    · exact h.elim0
  pi_inj := fun a b _ => Subsingleton.elim a b
  pi_range := by
    rintro (v | h)
    · fin_cases v
      · refine ⟨?_, fun h => absurd inq_y h.2⟩
        rintro ⟨i, h⟩; simp at h
      · exact ⟨fun _ => inp_r, fun _ => ⟨0, rfl⟩⟩
    · exact h.elim0
  shocks := inq_e
  square := rfl

abbrev R := Rows (Fin 1) (Fin 0) Bool
abbrev Q := Fin 1 ⊕ Bool

/-- the orthogonal factor: a permutation of the rows (equation, shock, constraint) -/
def Qm : Matrix (Q ⊕ Fin 1) R Rat
  | .inl (.inl _), .inl (.inr false) => 1
  | .inl (.inr false), .inl (.inl _) => 1
  | .inl (.inr true), .inl (.inr true) => 1
  | .inr _, .inr _ => 1
  | _, _ => 0

def omg : Matrix (Fin 1) Q Rat := fun _ j => match j with
  | .inl _ => 1/2
  | .inr false => 2/3
  | .inr true => 1

def lam : Matrix Q Q Rat := fun i j => match i, j with
  | .inl _, .inl _ => 1/2
  | .inl _, .inr false => 2/3
  | .inl _, .inr true => 0
  | .inr _, _ => 0

/-- external routines that fulfil their contracts for this model -/
def orc : Oracle R Q (Fin 1) Rat where
  rq := fun A => (A * Qmᵀ, Qm)
  klein := fun _ _ => .ok (omg, lam)

theorem QQt : Qm * Qmᵀ = 1 := by
  ext i j
  rcases i with (i | (_ | _)) | i <;> rcases j with (j | (_ | _)) | j <;>
    simp [Matrix.mul_apply, Fintype.sum_sum_type, Qm, Matrix.one_apply] <;> exact Subsingleton.elim _ _

theorem QtQ : Qmᵀ * Qm = 1 := by
  ext i j
  rcases i with ((i | i) | (_ | _)) | i <;> rcases j with ((j | j) | (_ | _)) | j <;>
    first | exact i.elim0 | exact j.elim0 | (simp [Matrix.mul_apply, Fintype.sum_sum_type, Qm, Matrix.one_apply] <;> exact Subsingleton.elim _ _) | simp [Matrix.mul_apply, Fintype.sum_sum_type, Qm, Matrix.one_apply]

/-- entries of the system matrices -/
def Sm : Matrix (Q ⊕ Fin 1) (Q ⊕ Fin 1) Rat
  | .inl (.inl _), .inl (.inr false) => -1
  | .inl (.inr false), .inl (.inl _) => -1
  | .inl (.inr false), .inr _ => -1
  | .inl (.inr true), .inl (.inr true) => -1
  | .inr _, .inl (.inl _) => -1
  | _, _ => 0

def Tm : Matrix (Q ⊕ Fin 1) (Q ⊕ Fin 1) Rat
  | .inl (.inr false), .inl (.inl _) => -3/4
  | .inl (.inr false), .inl (.inr false) => -1
  | .inr _, .inl (.inr true) => 1
  | .inr _, .inr _ => -1
  | _, _ => 0

/-- at the bound the second shock is ineffective -/
def Wm : Matrix (Q ⊕ Fin 1) (Q ⊕ Fin 1) Rat
  | .inl (.inr false), .inl (.inl _) => -3/4
  | .inl (.inr false), .inl (.inr false) => -1
  | .inr _, .inr _ => -1
  | _, _ => 0

def Vm : Matrix (Q ⊕ Fin 1) (Q ⊕ Fin 1) Rat
  | .inl (.inl _), .inl (.inr false) => -1
  | .inl (.inr false), .inl (.inl _) => -1
  | .inl (.inr false), .inr _ => -1
  | .inl (.inr true), .inl (.inr true) => -1
  | _, _ => 0

def hmB (b : Rat) : Q ⊕ Fin 1 → Rat
  | .inr _ => b
  | _ => 0

theorem sys_S : (sysOf (layB b) orc).S = Sm := by
  ext i j
  rcases i with (i | (_ | _)) | i <;> rcases j with (j | (_ | _)) | j <;>
    simp [sysOf, orc, Matrix.mul_apply, Fintype.sum_sum_type, Qm, PU, BBU, AAc, AA1, BB1, fbY, fbN, qi, layB, Sm,
      yaml, Input.ofYaml, declB, Fin.isValue, fin1]

theorem sys_V : (sysOf (layB b) orc).V = Vm := by
  ext i j
  rcases i with (i | (_ | _)) | i <;> rcases j with (j | (_ | _)) | j <;>
    simp [sysOf, orc, Matrix.mul_apply, Fintype.sum_sum_type, Qm, PR, BBR, AAc, AA1, BB1, fbY, fbN, qi, layB, Vm,
      yaml, Input.ofYaml, declB, Fin.isValue, fin1]

theorem CCU_v (e : Fin 1) (v : Fin 2) : CCU tol (inpB b) hyb (.inl (.inl (.inl e))) (.inl (.inl v)) = if v = 0 then -3/4 else 0 :=
  CC1_v e v

theorem CCR_v (e : Fin 1) (v : Fin 2) : CCR tol (inpB b) hyb (.inl (.inl (.inl e))) (.inl (.inl v)) = if v = 0 then -3/4 else 0 :=
  CC1_v e v

theorem lay_hyb : (layB b).hyb = hyb := rfl

theorem MU_y (e j : Fin 1) : MU (layB b) (.inl (.inl (.inl e))) (.inl (.inl j)) = -3/4 := CCU_v e 0

theorem MR_y (e j : Fin 1) : MR (layB b) (.inl (.inl (.inl e))) (.inl (.inl j)) = -3/4 := CCR_v e 0

theorem sys_T : (sysOf (layB b) orc).T = Tm := by
  ext i j
  rcases i with (i | (_ | _)) | i <;> rcases j with (j | (_ | _)) | j <;>
    simp [sysOf, orc, Matrix.mul_apply, Fintype.sum_sum_type, Qm, MU_y] <;>
    simp [MU, BBU, CCU, CC1, BB1, fbY, fbN, fcY, fcN, qi, layB, Tm,
      yaml, Input.ofYaml, declB, not_inall, Fin.isValue, fin1]

theorem sys_W : (sysOf (layB b) orc).W = Wm := by
  ext i j
  rcases i with (i | (_ | _)) | i <;> rcases j with (j | (_ | _)) | j <;>
    simp [sysOf, orc, Matrix.mul_apply, Fintype.sum_sum_type, Qm, MR_y] <;>
    simp [MR, BBR, CCR, CC1, BB1, fbY, fbN, fcY, fcN, qi, layB, Wm,
      yaml, Input.ofYaml, declB, not_inall, Fin.isValue, fin1]

theorem sys_h : (sysOf (layB b) orc).h = (hmB b) := by
  ext i
  rcases i with (i | (_ | _)) | i <;>
    simp [sysOf, orc, mulVec, dotProduct, Fintype.sum_sum_type, Qm, gg, hmB, yaml, Input.ofYaml, declB]

theorem rq_spec (A : Matrix (Q ⊕ Fin 1) R Rat) (h : ∀ i j, (A * Qmᵀ) (.inr i) (.inl j) = 0) : RQSpec A (A * Qmᵀ) Qm :=
  ⟨by rw [Matrix.mul_assoc, QtQ, Matrix.mul_one], QtQ, QQt, h⟩

theorem oracleOK : OracleOK (layB b) orc where
  rqU := by
    apply rq_spec
    intro i j
    have := congrFun (congrFun (sys_T (b := b)) (.inl j)) (.inr i)
    rcases j with j | (_ | _) <;> exact this
  rqR := by
    apply rq_spec
    intro i j
    have := congrFun (congrFun (sys_W (b := b)) (.inl j)) (.inr i)
    rcases j with j | (_ | _) <;> exact this
  klein := by
    intro o l h
    simp only [orc, Except.ok.injEq, Prod.mk.injEq] at h
    obtain ⟨rfl, rfl⟩ := h
    intro q0
    rw [sys_S, sys_T]
    funext i
    rcases i with (i | (_ | _)) | i <;>
      simp [mulVec, dotProduct, Fintype.sum_sum_type, Sm, Tm, omg, lam, Matrix.mul_apply, -mulVec_mulVec] <;> ring

theorem noTiny : NoTiny tol (inpB b) where
  pos := by norm_num [tol]
  le_one := by norm_num [tol]
  A := by
    intro i j h; fin_cases j <;> simp [yaml, Input.ofYaml, declB, tol] at h ⊢ <;> norm_num at h
  B := by
    intro i j h; fin_cases j <;> simp [yaml, Input.ofYaml, declB, tol] at h ⊢ <;> norm_num at h
  C := by
    intro i j h; fin_cases j <;> simp [yaml, Input.ofYaml, declB, tol] at h ⊢ <;> norm_num [abs_lt] at h
  D := by
    intro i j h; cases j <;> simp [yaml, Input.ofYaml, declB, tol] at h ⊢ <;> norm_num at h
  fc := by
    intro j h; simp [fcN, yaml, Input.ofYaml, declB]
  fd := by
    intro fd h j hj
    simp only [yaml, Input.ofYaml, declB, Option.some.injEq] at h
    subst h
    cases j
    · simp
    · simp [tol] at hj; norm_num at hj

/-- the matrices after normalisation -/
def Sn : Matrix (Q ⊕ Fin 1) (Q ⊕ Fin 1) Rat
  | .inl (.inl _), .inl (.inr false) => -1
  | .inl (.inr false), .inl (.inl _) => -1
  | .inl (.inr false), .inr _ => -1
  | .inl (.inr true), .inl (.inr true) => -1
  | .inr _, .inl (.inl _) => 1
  | _, _ => 0

def Tn : Matrix (Q ⊕ Fin 1) (Q ⊕ Fin 1) Rat
  | .inl (.inr false), .inl (.inl _) => -3/4
  | .inl (.inr false), .inl (.inr false) => -1
  | .inr _, .inl (.inr true) => -1
  | .inr _, .inr _ => 1
  | _, _ => 0

def Wn : Matrix (Q ⊕ Fin 1) (Q ⊕ Fin 1) Rat
  | .inl (.inr false), .inl (.inl _) => -3/4
  | .inl (.inr false), .inl (.inr false) => -1
  | .inr _, .inr _ => 1
  | _, _ => 0

def hnB (b : Rat) : Q ⊕ Fin 1 → Rat
  | .inr _ => -b
  | _ => 0

def sysB (b : Rat) : Sys Q (Fin 1) Rat := ⟨Sn, Tn, Vm, Wn, (hnB b)⟩

theorem norm_ok : normalise (sysOf (layB b) orc) = .ok (sysB b) := by
  have hinv : npInv (Tm.toBlocks₂₂) = .ok (-1 : Matrix (Fin 1) (Fin 1) Rat) := by
    apply npInv_eq_of_mul
    ext i j
    simp [Matrix.mul_apply, toBlocks₂₂, Tm, Matrix.one_apply, Fin.isValue, fin1]
  have hinvW : npInv (Wm.toBlocks₂₂) = .ok (-1 : Matrix (Fin 1) (Fin 1) Rat) := by
    apply npInv_eq_of_mul
    ext i j
    simp [Matrix.mul_apply, toBlocks₂₂, Wm, Matrix.one_apply, Fin.isValue, fin1]
  unfold normalise
  rw [sys_T, sys_W, sys_S, sys_V, sys_h, hinv, hinvW]
  simp only [Except.ok.injEq, sysB, Sys.mk.injEq]
  refine ⟨?_, ?_, ?_, ?_, ?_⟩
  · ext i j
    rcases i with (i | (_ | _)) | i <;> rcases j with (j | (_ | _)) | j <;>
      simp [lowerRows, toBlocks₁₁, toBlocks₁₂, toBlocks₂₁, toBlocks₂₂, Sm, Sn]
  · ext i j
    rcases i with (i | (_ | _)) | i <;> rcases j with (j | (_ | _)) | j <;>
      simp [lowerRows, toBlocks₁₁, toBlocks₁₂, toBlocks₂₁, toBlocks₂₂, Tm, Tn]
  · ext i j
    rcases i with (i | (_ | _)) | i <;> rcases j with (j | (_ | _)) | j <;>
      simp [lowerRows, toBlocks₁₁, toBlocks₁₂, toBlocks₂₁, toBlocks₂₂, Vm]
  · ext i j
    rcases i with (i | (_ | _)) | i <;> rcases j with (j | (_ | _)) | j <;>
      simp [lowerRows, toBlocks₁₁, toBlocks₁₂, toBlocks₂₁, toBlocks₂₂, Wm, Wn]
  · ext i
    rcases i with (i | (_ | _)) | i <;> simp [lowerVec, hmB, hnB, neg_mulVec]

/-- the coefficient of `r` on lagged `y` is not negative -/
def Inv (c : Cell Q (Fin 1) Rat) : Prop := 0 ≤ c.pmat 0 (.inl 0)

/-- inverse of the matrix in `get_lam` -/
def invM (a b c : Rat) : Matrix Q Q Rat := fun i j => match i, j with
  | .inl _, .inl _ => b / (1 + a)
  | .inl _, .inr false => -1 / (1 + a)
  | .inl _, .inr true => c / (1 + a)
  | .inr false, .inl _ => -1
  | .inr true, .inr true => -1
  | .inr _, .inr _ => 0
  | .inr true, .inl _ => 0

theorem lower_blocks (l : Nat) : (if l ≠ 0 then (sysB b).S else (sysB b).V).toBlocks₁₁ = Sn.toBlocks₁₁ ∧
    (if l ≠ 0 then (sysB b).S else (sysB b).V).toBlocks₁₂ = Sn.toBlocks₁₂ := by
  by_cases h : l ≠ 0
  · simp [h, sysB]
  · simp only [h, if_false, sysB]
    constructor
    · ext i j
      rcases i with i | (_ | _) <;> rcases j with j | (_ | _) <;> simp [toBlocks₁₁, Vm, Sn]
    · ext i j
      rcases i with i | (_ | _) <;> simp [toBlocks₁₂, Vm, Sn]

theorem inv_ok (l : Nat) (c : Cell Q (Fin 1) Rat) (h : Inv c) :
    npInv ((if l ≠ 0 then (sysB b).S else (sysB b).V).toBlocks₁₁ + (if l ≠ 0 then (sysB b).S else (sysB b).V).toBlocks₁₂ * c.pmat) =
      .ok (invM (c.pmat 0 (.inl 0)) (c.pmat 0 (.inr false)) (c.pmat 0 (.inr true))) := by
  rw [(lower_blocks l).1, (lower_blocks l).2]
  apply npInv_eq_of_mul
  have hne : (1 + c.pmat 0 (.inl 0)) ≠ 0 := by unfold Inv at h; positivity
  ext i j
  rcases i with i | (_ | _) <;> rcases j with j | (_ | _) <;>
    simp [Matrix.mul_apply, Fintype.sum_sum_type, toBlocks₁₁, toBlocks₁₂, Sn, invM, Matrix.one_apply,
      Fin.isValue, fin1]
  all_goals field_simp
  all_goals ring

theorem step_ok (l : Nat) (c : Cell Q (Fin 1) Rat) (h : Inv c) :
    ∃ c', stepCell (sysB b) l c = .ok c' ∧ Inv c' := by
  unfold stepCell getLam
  dsimp only
  rw [inv_ok l c h]
  refine ⟨_, rfl, ?_⟩
  have hpos : 0 < (1 + c.pmat 0 (.inl 0)) := by unfold Inv at h; positivity
  unfold Inv getOmg
  dsimp only
  by_cases hl : l ≠ 0
  · simp [hl, sysB, Matrix.mul_apply, Fintype.sum_sum_type, toBlocks₁₁, toBlocks₂₁, toBlocks₂₂, Sn, Tn, invM]
    rw [neg_div, neg_div, neg_mul_neg]
    positivity
  · simp [hl, sysB, Matrix.mul_apply, Fintype.sum_sum_type, toBlocks₁₁, toBlocks₂₁, toBlocks₂₂, Vm, Wn, invM]

/-- `set_par` succeeds for this model, for all `l_max`, `k_max` and schedules. -/
theorem succeeds (lMax kMax : Nat) {sched : Nat → List Nat} (hs : ∀ l < lMax + 1, (sched l).Perm (List.range (kMax + 1))) :
    ∃ mod, Succeeded (layB b) orc lMax kMax sched mod := by
  obtain ⟨t, ht⟩ := preprocess_succeeds (ff (layB b)) (omg := omg) (lam := lam) norm_ok Inv (by unfold Inv; norm_num [omg])
    step_ok lMax kMax hs
  refine ⟨⟨t, omg, lam, (inpB b).xbar, ff (layB b), (lMax, kMax), hx (layB b)⟩, ?_, hs, oracleOK, noTiny, rfl, ⟨0⟩⟩
  unfold genSys
  dsimp only
  rw [show orc.klein (sysOf (layB b) orc).S (sysOf (layB b) orc).T = .ok (omg, lam) from rfl]
  dsimp only
  rw [ht]

theorem serial_perm (lMax kMax : Nat) : ∀ l < lMax + 1, (serial kMax l).Perm (List.range (kMax + 1)) :=
  fun _ _ => List.Perm.refl _

/-! The model with bound `-1`. -/

abbrev decl := declB (-1)
abbrev inp' := inpB (-1)
abbrev lay := layB (-1)
abbrev sysN := sysB (-1)

end Pydsge.Ex11
