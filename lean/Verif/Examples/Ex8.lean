import Verif.Props.Solution
import Verif.Lemmas.NonSingular
import Mathlib.Data.Rat.Defs
import Mathlib.Algebra.Order.Ring.Rat
import Mathlib.Algebra.Order.Field.Rat
import Mathlib.Tactic.NormNum
import Mathlib.Tactic.FinCases
import Mathlib.Tactic.FieldSimp
import Mathlib.Tactic.Positivity
import Mathlib.Tactic.Linarith

/-!
# A model with a coefficient below the tolerance

`y = 3/4 y(-1) + 1/2000 g(-1) - r(+1) + e`, `g = y - y(-1)`, constraint `r = max(y, -1)`, with a tolerance of `1/1000`: the lag of `g` is ignored and the
solution is that of the model without it (`Ex7`): `y = 1/2 y(-1) + 2/3 e`, `r = y`, `g = -1/2 y(-1) + 2/3 e`.  Equations and controls are indexed by `Bool`: `false` is the first equation and `g`, `true` is the second
equation and `r`.
-/

set_option autoImplicit false
set_option linter.unusedSimpArgs false

namespace Pydsge.Ex8

open Matrix Pydsge.Engine Pydsge.Spec Pydsge.Tools Pydsge.GenSys

/-- variables: `0 = y`, `1 = g`, `2 = r` -/
def decl : Declared Bool (Fin 3) (Fin 1) Rat where
  A := fun i v => if i = false ∧ v = 2 then 1 else 0
  B := fun i v => if (i = false ∧ v = 0) ∨ (i = true ∧ v = 1) then 1 else if i = true ∧ v = 0 then -1 else 0
  C := fun i v => if v = 0 then (if i then 1 else -3/4) else if i = false ∧ v = 1 then -1/2000 else 0
  D := fun i _ => if i then 0 else -1
  cvar := 2
  rb := fun v => if v = 0 then 1 else 0
  rc := 0
  rd := 0
  xbar := -1

abbrev inp' : Input Bool (Fin 3) (Fin 1) (Fin 1) Rat := yaml decl (fun _ v => if v = 0 then 1 else 0) (fun _ => 0)

def tol : Rat := 1 / 1000

theorem fin1 (i : Fin 1) : i = 0 := Subsingleton.elim i 0

theorem not_inall (v : Fin 3) : ¬ inall tol inp' v := by
  rintro ⟨h1, h2⟩
  fin_cases v
  · apply h1; intro i; simp [inp', yaml, Input.ofYaml, decl, tol]
  · apply h1; intro i; simp [inp', yaml, Input.ofYaml, decl, tol]
  · apply h2; intro i; simp [inp', yaml, Input.ofYaml, decl, tol]

instance : DecidablePred (inall tol inp') := fun v => .isFalse (not_inall v)

def hyb : Fin 0 → Fin 3 := Fin.elim0

theorem CC1_v (i : Bool) (v : Fin 3) : CC1 tol inp' hyb (.inl (.inl i)) (.inl (.inl v)) =
    if v = 0 then (if i then 1 else -3/4) else if i = false ∧ v = 1 then -1/2000 else 0 := by
  show (if inall tol inp' v then 0 else _) = _
  rw [if_neg (not_inall v)]
  rfl

theorem CC1_e (i : Bool) (e' : Fin 1) : CC1 tol inp' hyb (.inl (.inl i)) (.inr e') = if i then 0 else -1 := rfl

theorem inq_y : inq tol inp' hyb (.inl (.inl 0)) := by
  left
  intro h
  have := h (.inl (.inl false))
  rw [CC1_v] at this
  norm_num [tol] at this

theorem inq_e (e : Fin 1) : inq tol inp' hyb (.inr e) := by
  left
  intro h
  have := h (.inl (.inl false))
  rw [CC1_e] at this
  norm_num [tol] at this

theorem not_inq {v : Fin 3} (hv : v ≠ 0) : ¬ inq tol inp' hyb (.inl (.inl v)) := by
  rintro (h | h)
  · apply h
    rintro ((r | r) | r)
    · rw [CC1_v, if_neg hv]
      split_ifs <;> norm_num [tol, fast0, abs_lt]
    · exact r.elim0
    · simp [CC1, tol]
  · apply h
    simp [fast0, fcY, fcN, inp', yaml, Input.ofYaml, decl, tol]

theorem inp_w : inp tol inp' hyb (.inl (.inl 1)) := by
  refine ⟨Or.inr ?_, not_inq (by decide)⟩
  intro h
  have := h (.inl (.inl true))
  simp [BB1, inp', yaml, Input.ofYaml, decl, tol] at this
  norm_num at this

theorem inp_r : inp tol inp' hyb (.inl (.inl 2)) := by
  refine ⟨Or.inl ?_, not_inq (by decide)⟩
  intro h
  have := h (.inl (.inl false))
  simp [AA1, inp', yaml, Input.ofYaml, decl, tol] at this
  norm_num at this

def lay : Layout tol inp' (Fin 0) (Fin 1) Bool where
  hyb := hyb
  zi := fun _ => .inl 0
  pi := fun b => .inl (if b then 2 else 1)
  hyb_inj := fun a => a.elim0
  hyb_range := fun v => ⟨fun ⟨h, _⟩ => h.elim0, fun h => absurd h (not_inall v)⟩
  zi_inj := fun a b _ => Subsingleton.elim a b
  zi_range := by
    rintro (v | h)
    · by_cases hv : v = 0
      · subst hv; exact ⟨fun _ => inq_y, fun _ => ⟨0, rfl⟩⟩
      · refine ⟨?_, fun h => absurd h (not_inq hv)⟩
        rintro ⟨i, h⟩
        exact absurd (Sum.inl.inj h).symm hv
    · exact h.elim0
  pi_inj := by
    intro a b h
    rcases a with _ | _ <;> rcases b with _ | _ <;> simp at h ⊢
  pi_range := by
    rintro (v | h)
    · fin_cases v
      · refine ⟨?_, fun h => absurd inq_y h.2⟩
        rintro ⟨i, h⟩
        rcases i with _ | _ <;> simp at h
      · exact ⟨fun _ => inp_w, fun _ => ⟨false, rfl⟩⟩
      · exact ⟨fun _ => inp_r, fun _ => ⟨true, rfl⟩⟩
    · exact h.elim0
  shocks := inq_e
  square := rfl

abbrev R := Rows Bool (Fin 0) (Fin 1)
abbrev Q := Fin 1 ⊕ Fin 1

/-- the orthogonal factor: a permutation of the rows -/
def Qm : Matrix (Q ⊕ Bool) R Rat
  | .inl (.inl _), .inl (.inr _) => 1
  | .inl (.inr _), .inl (.inl (.inl false)) => 1
  | .inr false, .inl (.inl (.inl true)) => 1
  | .inr true, .inr _ => 1
  | _, _ => 0

def omg : Matrix Bool Q Rat := Matrix.of fun i j => match j with
  | .inl _ => if i then 1/2 else -1/2
  | .inr _ => 2/3

def lam : Matrix Q Q Rat := Matrix.of fun i j => match i, j with
  | .inl _, .inl _ => 1/2
  | .inl _, .inr _ => 2/3
  | .inr _, _ => 0

def orc : Oracle R Q Bool Rat where
  rq := fun A => (A * Qmᵀ, Qm)
  klein := fun _ _ => .ok (omg, lam)

theorem QQt : Qm * Qmᵀ = 1 := by
  ext i j
  rcases i with (i | i) | (_ | _) <;> rcases j with (j | j) | (_ | _) <;>
    simp [Matrix.mul_apply, Fintype.sum_sum_type, Qm, Matrix.one_apply] <;> exact Subsingleton.elim _ _

theorem QtQ : Qmᵀ * Qm = 1 := by
  ext i j
  rcases i with (((_ | _) | i) | i) | i <;> rcases j with (((_ | _) | j) | j) | j <;>
    first | exact i.elim0 | exact j.elim0 | (simp [Matrix.mul_apply, Fintype.sum_sum_type, Qm, Matrix.one_apply] <;> exact Subsingleton.elim _ _) | simp [Matrix.mul_apply, Fintype.sum_sum_type, Qm, Matrix.one_apply]

def Sm : Matrix (Q ⊕ Bool) (Q ⊕ Bool) Rat
  | .inl (.inl _), .inl (.inr _) => -1
  | .inl (.inr _), .inl (.inl _) => -1
  | .inl (.inr _), .inr true => -1
  | .inr false, .inl (.inl _) => 1
  | .inr true, .inl (.inl _) => -1
  | _, _ => 0

def Vm : Matrix (Q ⊕ Bool) (Q ⊕ Bool) Rat
  | .inl (.inl _), .inl (.inr _) => -1
  | .inl (.inr _), .inl (.inl _) => -1
  | .inl (.inr _), .inr true => -1
  | .inr false, .inl (.inl _) => 1
  | _, _ => 0

def Tm : Matrix (Q ⊕ Bool) (Q ⊕ Bool) Rat
  | .inl (.inr _), .inl (.inl _) => -3/4
  | .inl (.inr _), .inl (.inr _) => -1
  | .inr false, .inl (.inl _) => 1
  | .inr false, .inr false => 1
  | .inr true, .inr true => -1
  | _, _ => 0

def hm : Q ⊕ Bool → Rat
  | .inr true => -1
  | _ => 0

theorem sys_S : (sysOf lay orc).S = Sm := by
  ext i j
  rcases i with (i | i) | (_ | _) <;> rcases j with (j | j) | (_ | _) <;>
    simp [sysOf, orc, Matrix.mul_apply, Fintype.sum_sum_type, Qm, PU, BBU, AAc, AA1, BB1, fbY, fbN, qi, lay, Sm,
      inp', yaml, Input.ofYaml, decl, fin1] <;> norm_num

theorem sys_V : (sysOf lay orc).V = Vm := by
  ext i j
  rcases i with (i | i) | (_ | _) <;> rcases j with (j | j) | (_ | _) <;>
    simp [sysOf, orc, Matrix.mul_apply, Fintype.sum_sum_type, Qm, PR, BBR, AAc, AA1, BB1, fbY, fbN, qi, lay, Vm,
      inp', yaml, Input.ofYaml, decl, fin1] <;> norm_num

theorem MU_y (i : Bool) (j : Fin 1) : MU lay (.inl (.inl (.inl i))) (.inl (.inl j)) = if i then 1 else -3/4 := by
  have : MU lay (.inl (.inl (.inl i))) (.inl (.inl j)) = CC1 tol inp' hyb (.inl (.inl i)) (.inl (.inl 0)) := rfl
  rw [this, CC1_v]
  rcases i with _ | _ <;> simp

theorem MR_y (i : Bool) (j : Fin 1) : MR lay (.inl (.inl (.inl i))) (.inl (.inl j)) = if i then 1 else -3/4 := by
  have : MR lay (.inl (.inl (.inl i))) (.inl (.inl j)) = CC1 tol inp' hyb (.inl (.inl i)) (.inl (.inl 0)) := rfl
  rw [this, CC1_v]
  rcases i with _ | _ <;> simp

theorem sys_T : (sysOf lay orc).T = Tm := by
  ext i j
  rcases i with (i | i) | (_ | _) <;> rcases j with (j | j) | (_ | _) <;>
    simp [sysOf, orc, Matrix.mul_apply, Fintype.sum_sum_type, Qm, MU_y, Tm] <;>
    simp [MU, BBU, CCU, CC1, BB1, fbY, fbN, fcY, fcN, qi, lay, Tm,
      inp', yaml, Input.ofYaml, decl, not_inall, fin1]

theorem sys_W : (sysOf lay orc).W = Tm := by
  ext i j
  rcases i with (i | i) | (_ | _) <;> rcases j with (j | j) | (_ | _) <;>
    simp [sysOf, orc, Matrix.mul_apply, Fintype.sum_sum_type, Qm, MR_y, Tm] <;>
    simp [MR, BBR, CCR, CC1, BB1, fbY, fbN, fcY, fcN, qi, lay, Tm,
      inp', yaml, Input.ofYaml, decl, not_inall, fin1]

theorem sys_h : (sysOf lay orc).h = hm := by
  ext i
  rcases i with (i | i) | (_ | _) <;>
    simp [sysOf, orc, mulVec, dotProduct, Fintype.sum_sum_type, Qm, gg, hm, inp', yaml, Input.ofYaml, decl]

theorem rq_spec (A : Matrix (Q ⊕ Bool) R Rat) (h : ∀ i j, (A * Qmᵀ) (.inr i) (.inl j) = 0) : RQSpec A (A * Qmᵀ) Qm :=
  ⟨by rw [Matrix.mul_assoc, QtQ, Matrix.mul_one], QtQ, QQt, h⟩

theorem oracleOK : OracleOK lay orc where
  rqU := by
    apply rq_spec
    intro i j
    have := congrFun (congrFun sys_T (.inl j)) (.inr i)
    rcases j with j | j <;> rcases i with _ | _ <;> exact this
  rqR := by
    apply rq_spec
    intro i j
    have := congrFun (congrFun sys_W (.inl j)) (.inr i)
    rcases j with j | j <;> rcases i with _ | _ <;> exact this
  klein := by
    intro o l h
    simp only [orc, Except.ok.injEq, Prod.mk.injEq] at h
    obtain ⟨rfl, rfl⟩ := h
    intro q0
    rw [sys_S, sys_T]
    funext i
    rcases i with (i | i) | (_ | _) <;>
      simp [mulVec, dotProduct, Fintype.sum_sum_type, Sm, Tm, omg, lam, Matrix.mul_apply, -mulVec_mulVec] <;> ring

/-- the matrices after normalisation -/
def Sn : Matrix (Q ⊕ Bool) (Q ⊕ Bool) Rat
  | .inl (.inl _), .inl (.inr _) => -1
  | .inl (.inr _), .inl (.inl _) => -1
  | .inl (.inr _), .inr true => -1
  | .inr _, .inl (.inl _) => 1
  | _, _ => 0

def Tn : Matrix (Q ⊕ Bool) (Q ⊕ Bool) Rat
  | .inl (.inr _), .inl (.inl _) => -3/4
  | .inl (.inr _), .inl (.inr _) => -1
  | .inr false, .inl (.inl _) => 1
  | .inr false, .inr false => 1
  | .inr true, .inr true => 1
  | _, _ => 0

def hn : Q ⊕ Bool → Rat
  | .inr true => 1
  | _ => 0

def sysN : Sys Q Bool Rat := ⟨Sn, Tn, Vm, Tn, hn⟩

def invT : Matrix Bool Bool Rat := Matrix.of fun i j => match i, j with
  | false, false => 1
  | true, true => -1
  | _, _ => 0

theorem norm_ok : normalise (sysOf lay orc) = .ok sysN := by
  have hT : npInv (Tm.toBlocks₂₂) = .ok invT := by
    apply npInv_eq_of_mul
    ext i j
    rcases i with _ | _ <;> rcases j with _ | _ <;> simp [Matrix.mul_apply, toBlocks₂₂, Tm, Matrix.one_apply, invT]
  unfold normalise
  rw [sys_T, sys_W, sys_S, sys_V, sys_h, hT]
  simp only [Except.ok.injEq, sysN, Sys.mk.injEq]
  refine ⟨?_, ?_, ?_, ?_, ?_⟩
  · ext i j
    rcases i with (i | i) | (_ | _) <;> rcases j with (j | j) | (_ | _) <;>
      simp [lowerRows, toBlocks₁₁, toBlocks₁₂, toBlocks₂₁, toBlocks₂₂, Sm, Sn, invT, Matrix.mul_apply]
  · ext i j
    rcases i with (i | i) | (_ | _) <;> rcases j with (j | j) | (_ | _) <;>
      simp [lowerRows, toBlocks₁₁, toBlocks₁₂, toBlocks₂₁, toBlocks₂₂, Tm, Tn, invT, Matrix.mul_apply]
  · ext i j
    rcases i with (i | i) | (_ | _) <;> rcases j with (j | j) | (_ | _) <;>
      simp [lowerRows, toBlocks₁₁, toBlocks₁₂, toBlocks₂₁, toBlocks₂₂, Vm, invT, Matrix.mul_apply]
  · ext i j
    rcases i with (i | i) | (_ | _) <;> rcases j with (j | j) | (_ | _) <;>
      simp [lowerRows, toBlocks₁₁, toBlocks₁₂, toBlocks₂₁, toBlocks₂₂, Tm, Tn, invT, Matrix.mul_apply]
  · ext i
    rcases i with (i | i) | (_ | _) <;> simp [lowerVec, hm, hn, invT, mulVec, dotProduct]

/-- the coefficient of `r` on lagged `y` is not negative -/
def Inv (c : Cell Q Bool Rat) : Prop := 0 ≤ c.pmat true (.inl 0)

/-- inverse of the matrix in `get_lam` -/
def invM (a b : Rat) : Matrix Q Q Rat := Matrix.of fun i j => match i, j with
  | .inl _, .inl _ => b / (1 + a)
  | .inl _, .inr _ => -1 / (1 + a)
  | .inr _, .inl _ => -1
  | .inr _, .inr _ => 0

theorem lower_blocks (l : Nat) : (if l ≠ 0 then sysN.S else sysN.V).toBlocks₁₁ = Sn.toBlocks₁₁ ∧
    (if l ≠ 0 then sysN.S else sysN.V).toBlocks₁₂ = Sn.toBlocks₁₂ ∧ (if l ≠ 0 then sysN.T else sysN.W) = Tn := by
  by_cases h : l ≠ 0
  · simp [h, sysN]
  · simp only [h, if_false, sysN, and_true]
    constructor <;> ext i j <;> rcases i with i | i <;> rcases j with j | j
    all_goals simp [toBlocks₁₁, toBlocks₁₂, Vm, Sn]

theorem inv_ok (l : Nat) (c : Cell Q Bool Rat) (h : Inv c) :
    npInv ((if l ≠ 0 then sysN.S else sysN.V).toBlocks₁₁ + (if l ≠ 0 then sysN.S else sysN.V).toBlocks₁₂ * c.pmat) =
      .ok (invM (c.pmat true (.inl 0)) (c.pmat true (.inr 0))) := by
  rw [(lower_blocks l).1, (lower_blocks l).2.1]
  apply npInv_eq_of_mul
  have hne : (1 + c.pmat true (.inl 0)) ≠ 0 := by unfold Inv at h; positivity
  ext i j
  rcases i with i | i <;> rcases j with j | j <;>
    simp [Matrix.mul_apply, Fintype.sum_sum_type, toBlocks₁₁, toBlocks₁₂, Sn, invM, Matrix.one_apply, fin1]
  all_goals field_simp
  all_goals ring

theorem step_ok (l : Nat) (c : Cell Q Bool Rat) (h : Inv c) : ∃ c', stepCell sysN l c = .ok c' ∧ Inv c' := by
  unfold stepCell getLam
  dsimp only
  rw [inv_ok l c h]
  refine ⟨_, rfl, ?_⟩
  have hpos : 0 < (1 + c.pmat true (.inl 0)) := by unfold Inv at h; positivity
  unfold Inv getOmg
  dsimp only
  by_cases hl : l ≠ 0
  · simp [hl, sysN, Matrix.mul_apply, Fintype.sum_sum_type, toBlocks₁₁, toBlocks₂₁, toBlocks₂₂, Sn, Tn, invM]
    rw [neg_div, neg_div, neg_mul_neg]
    positivity
  · simp [hl, sysN, Matrix.mul_apply, Fintype.sum_sum_type, toBlocks₁₁, toBlocks₂₁, toBlocks₂₂, Vm, Tn, invM]

/-- `set_par` succeeds for this model, for all `l_max`, `k_max` and schedules. -/
theorem gen_ok (lMax kMax : Nat) {sched : Nat → List Nat} (hs : ∀ l < lMax + 1, (sched l).Perm (List.range (kMax + 1))) :
    ∃ mod, genSys lay orc lMax kMax sched = .ok mod := by
  obtain ⟨t, ht⟩ := preprocess_succeeds (ff lay) (omg := omg) (lam := lam) norm_ok Inv (by unfold Inv; norm_num [omg])
    step_ok lMax kMax hs
  refine ⟨⟨t, omg, lam, inp'.xbar, ff lay, (lMax, kMax), hx lay⟩, ?_⟩
  unfold genSys
  dsimp only
  rw [show orc.klein (sysOf lay orc).S (sysOf lay orc).T = .ok (omg, lam) from rfl]
  dsimp only
  rw [ht]

end Pydsge.Ex8
