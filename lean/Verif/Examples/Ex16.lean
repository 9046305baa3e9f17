import Verif.Props.Solution
import Verif.Lemmas.NonSingular
import Mathlib.Data.Rat.Defs
import Mathlib.Algebra.Order.Ring.Rat
import Mathlib.Algebra.Order.Field.Rat
import Mathlib.Tactic.NormNum
import Mathlib.Tactic.FinCases

/-!
# A concrete model with two states and two shocks

`y = 1/2 y(-1) + e₁`, `w = 1/2 w(-1) - r(+1) + e₂`, `r = max(y, -1)`. The first equation is a process of its own. The linear solution is `r = y`,
`w = 1/2 w(-1) - 1/4 y(-1) - 1/2 e₁ + e₂`. Equations, states and shocks are indexed by `Bool`: `false` is the first, `true` the second.
-/

set_option autoImplicit false
set_option linter.unusedSimpArgs false

namespace Pydsge.Ex16

open Matrix Pydsge.Engine Pydsge.Spec Pydsge.Tools Pydsge.GenSys

/-- variables: `0 = y`, `1 = w`, `2 = r` -/
def decl : Declared Bool (Fin 3) Bool Rat where
  A := fun i v => if i = true ∧ v = 2 then 1 else 0
  B := fun i v => if (i = false ∧ v = 0) ∨ (i = true ∧ v = 1) then 1 else 0
  C := fun i v => if (i = false ∧ v = 0) ∨ (i = true ∧ v = 1) then -1/2 else 0
  D := fun i e => if i = e then -1 else 0
  cvar := 2
  rb := fun v => if v = 0 then 1 else 0
  rc := 0
  rd := 0
  xbar := -1

abbrev inp' : Input Bool (Fin 3) Bool (Fin 1) Rat := yaml decl (fun _ v => if v = 0 then 1 else 0) (fun _ => 0)

def tol : Rat := 1 / 1000

theorem fin1 (i : Fin 1) : i = 0 := Subsingleton.elim i 0

theorem not_inall (v : Fin 3) : ¬ inall tol inp' v := by
  rintro ⟨h1, h2⟩
  fin_cases v
  · apply h1; intro i; simp [inp', yaml, Input.ofYaml, decl, tol]
  · apply h1; intro i; simp [inp', yaml, Input.ofYaml, decl, tol]
  · apply h2; intro i; simp [inp', yaml, Input.ofYaml, decl, tol]

instance : DecidablePred (inall tol inp') := fun v => .isFalse (not_inall v)

def hyb : Fin 0 → Fin 3 := Fin.elim0

theorem CC1_v (i : Bool) (v : Fin 3) :
    CC1 tol inp' hyb (.inl (.inl i)) (.inl (.inl v)) = if (i = false ∧ v = 0) ∨ (i = true ∧ v = 1) then -1/2 else 0 := by
  show (if inall tol inp' v then 0 else _) = _
  rw [if_neg (not_inall v)]
  rfl

theorem CC1_e (i : Bool) (e' : Bool) : CC1 tol inp' hyb (.inl (.inl i)) (.inr e') = if i = e' then -1 else 0 := rfl

/-- the state `false` is `y`, the state `true` is `w` -/
def st (b : Bool) : Fin 3 := if b then 1 else 0

theorem inq_st (b : Bool) : inq tol inp' hyb (.inl (.inl (st b))) := by
  left
  intro h
  have := h (.inl (.inl b))
  rw [CC1_v] at this
  cases b <;> norm_num [abs_lt, tol, st] at this

theorem inq_e (e : Bool) : inq tol inp' hyb (.inr e) := by
  left
  intro h
  have := h (.inl (.inl e))
  rw [CC1_e] at this
  norm_num [abs_lt, tol] at this

theorem not_inq_r : ¬ inq tol inp' hyb (.inl (.inl 2)) := by
  rintro (h | h)
  · apply h
    rintro ((r | r) | r)
    · rw [CC1_v, if_neg (by simp)]; norm_num [tol]
    · exact r.elim0
    · simp [CC1, tol]
  · apply h
    simp [fast0, fcY, fcN, inp', yaml, Input.ofYaml, decl, tol]

theorem inp_r : inp tol inp' hyb (.inl (.inl 2)) := by
  refine ⟨Or.inl ?_, not_inq_r⟩
  intro h
  have := h (.inl (.inl true))
  simp [AA1, inp', yaml, Input.ofYaml, decl, tol] at this
  norm_num at this

def lay : Layout tol inp' (Fin 0) Bool (Fin 1) where
  hyb := hyb
  zi := fun b => .inl (st b)
  pi := fun _ => .inl 2
  hyb_inj := fun a => a.elim0
  hyb_range := fun v => ⟨fun ⟨h, _⟩ => h.elim0, fun h => absurd h (not_inall v)⟩
  zi_inj := by
    intro a b h
    rcases a with _ | _ <;> rcases b with _ | _ <;> simp [st] at h ⊢
  zi_range := by
    rintro (v | h)
    · fin_cases v
      · exact ⟨fun _ => inq_st false, fun _ => ⟨false, rfl⟩⟩
      · exact ⟨fun _ => inq_st true, fun _ => ⟨true, rfl⟩⟩
      · refine ⟨?_, fun h => absurd h not_inq_r⟩
        rintro ⟨i, h⟩
        rcases i with _ | _ <;> simp [st] at h
    · exact h.elim0
  pi_inj := fun a b _ => Subsingleton.elim a b
  pi_range := by
    rintro (v | h)
    · fin_cases v
      · refine ⟨?_, fun h => absurd (inq_st false) h.2⟩
        rintro ⟨i, h⟩; simp at h
      · refine ⟨?_, fun h => absurd (inq_st true) h.2⟩
        rintro ⟨i, h⟩; simp at h
      · exact ⟨fun _ => inp_r, fun _ => ⟨0, rfl⟩⟩
    · exact h.elim0
  shocks := inq_e
  square := rfl

abbrev R := Rows Bool (Fin 0) Bool
abbrev Q := Bool ⊕ Bool

/-- the orthogonal factor: the identity -/
def Qm : Matrix (Q ⊕ Fin 1) R Rat
  | .inl (.inl i), .inl (.inl (.inl j)) => if i = j then 1 else 0
  | .inl (.inr i), .inl (.inr j) => if i = j then 1 else 0
  | .inr _, .inr _ => 1
  | _, _ => 0

def omg : Matrix (Fin 1) Q Rat := fun _ j => match j with
  | .inl false => 1/2
  | .inr false => 1
  | _ => 0

def lam : Matrix Q Q Rat := fun i j => match i, j with
  | .inl false, .inl false => 1/2
  | .inl false, .inr false => 1
  | .inl true, .inl false => -1/4
  | .inl true, .inl true => 1/2
  | .inl true, .inr false => -1/2
  | .inl true, .inr true => 1
  | _, _ => 0

def orc : Oracle R Q (Fin 1) Rat where
  rq := fun A => (A * Qmᵀ, Qm)
  klein := fun _ _ => .ok (omg, lam)

theorem QQt : Qm * Qmᵀ = 1 := by
  ext i j
  rcases i with ((_ | _) | (_ | _)) | i <;> rcases j with ((_ | _) | (_ | _)) | j <;>
    simp [Matrix.mul_apply, Fintype.sum_sum_type, Qm, Matrix.one_apply, fin1]

theorem QtQ : Qmᵀ * Qm = 1 := by
  ext i j
  rcases i with (((_ | _) | i) | (_ | _)) | i <;> rcases j with (((_ | _) | j) | (_ | _)) | j <;>
    first | exact i.elim0 | exact j.elim0 | simp [Matrix.mul_apply, Fintype.sum_sum_type, Qm, Matrix.one_apply, fin1]

/-- entries of the system matrices -/
def Sm : Matrix (Q ⊕ Fin 1) (Q ⊕ Fin 1) Rat
  | .inl i, .inl j => if i = j then -1 else 0
  | .inl (.inl true), .inr _ => -1
  | .inr _, .inl (.inl false) => -1
  | _, _ => 0

def Tm : Matrix (Q ⊕ Fin 1) (Q ⊕ Fin 1) Rat
  | .inl (.inl i), .inl (.inl j) => if i = j then -1/2 else 0
  | .inl (.inl i), .inl (.inr j) => if i = j then -1 else 0
  | .inr _, .inr _ => -1
  | _, _ => 0

def Vm : Matrix (Q ⊕ Fin 1) (Q ⊕ Fin 1) Rat
  | .inl i, .inl j => if i = j then -1 else 0
  | .inl (.inl true), .inr _ => -1
  | _, _ => 0

def hm : Q ⊕ Fin 1 → Rat
  | .inr _ => -1
  | _ => 0

theorem sys_S : (sysOf lay orc).S = Sm := by
  ext i j
  rcases i with ((_ | _) | (_ | _)) | i <;> rcases j with ((_ | _) | (_ | _)) | j <;>
    simp [sysOf, orc, Matrix.mul_apply, Fintype.sum_sum_type, Qm, PU, BBU, AAc, AA1, BB1, fbY, fbN, qi, lay, st, Sm,
      inp', yaml, Input.ofYaml, decl, Fin.isValue, fin1]

theorem sys_V : (sysOf lay orc).V = Vm := by
  ext i j
  rcases i with ((_ | _) | (_ | _)) | i <;> rcases j with ((_ | _) | (_ | _)) | j <;>
    simp [sysOf, orc, Matrix.mul_apply, Fintype.sum_sum_type, Qm, PR, BBR, AAc, AA1, BB1, fbY, fbN, qi, lay, st, Vm,
      inp', yaml, Input.ofYaml, decl, Fin.isValue, fin1]

theorem MU_st (i j : Bool) : MU lay (.inl (.inl (.inl i))) (.inl (.inl j)) = if i = j then -1/2 else 0 := by
  have := CC1_v i (st j)
  refine this.trans ?_
  cases i <;> cases j <;> simp [st]

theorem MR_st (i j : Bool) : MR lay (.inl (.inl (.inl i))) (.inl (.inl j)) = if i = j then -1/2 else 0 := MU_st i j

theorem sys_T : (sysOf lay orc).T = Tm := by
  ext i j
  rcases i with ((_ | _) | (_ | _)) | i <;> rcases j with ((_ | _) | (_ | _)) | j <;>
    simp [sysOf, orc, Matrix.mul_apply, Fintype.sum_sum_type, Qm, MU_st] <;>
    simp [MU, BBU, CCU, CC1, BB1, fbY, fbN, fcY, fcN, qi, lay, st, Tm,
      inp', yaml, Input.ofYaml, decl, not_inall, Fin.isValue, fin1]

theorem sys_W : (sysOf lay orc).W = Tm := by
  ext i j
  rcases i with ((_ | _) | (_ | _)) | i <;> rcases j with ((_ | _) | (_ | _)) | j <;>
    simp [sysOf, orc, Matrix.mul_apply, Fintype.sum_sum_type, Qm, MR_st] <;>
    simp [MR, BBR, CCR, CC1, BB1, fbY, fbN, fcY, fcN, qi, lay, st, Tm,
      inp', yaml, Input.ofYaml, decl, not_inall, Fin.isValue, fin1]

theorem sys_h : (sysOf lay orc).h = hm := by
  ext i
  rcases i with (i | i) | i <;>
    simp [sysOf, orc, mulVec, dotProduct, Fintype.sum_sum_type, Qm, gg, hm, inp', yaml, Input.ofYaml, decl]

theorem rq_spec (A : Matrix (Q ⊕ Fin 1) R Rat) (h : ∀ i j, (A * Qmᵀ) (.inr i) (.inl j) = 0) : RQSpec A (A * Qmᵀ) Qm :=
  ⟨by rw [Matrix.mul_assoc, QtQ, Matrix.mul_one], QtQ, QQt, h⟩

theorem oracleOK : OracleOK lay orc where
  rqU := by
    apply rq_spec
    intro i j
    have := congrFun (congrFun sys_T (.inl j)) (.inr i)
    rcases j with (_ | _) | (_ | _) <;> exact this
  rqR := by
    apply rq_spec
    intro i j
    have := congrFun (congrFun sys_W (.inl j)) (.inr i)
    rcases j with (_ | _) | (_ | _) <;> exact this
  klein := by
    intro o l h
    simp only [orc, Except.ok.injEq, Prod.mk.injEq] at h
    obtain ⟨rfl, rfl⟩ := h
    intro q0
    rw [sys_S, sys_T]
    funext i
    rcases i with ((_ | _) | (_ | _)) | i <;>
      simp [mulVec, dotProduct, Fintype.sum_sum_type, Sm, Tm, omg, lam, Matrix.mul_apply, -mulVec_mulVec] <;> ring

theorem noTiny : NoTiny tol inp' where
  pos := by norm_num [tol]
  le_one := by norm_num [tol]
  A := by
    intro i j h; cases i <;> fin_cases j <;> simp [inp', yaml, Input.ofYaml, decl, tol] at h ⊢; norm_num at h
  B := by
    intro i j h; cases i <;> fin_cases j <;> simp [inp', yaml, Input.ofYaml, decl, tol] at h ⊢ <;> norm_num at h
  C := by
    intro i j h; cases i <;> fin_cases j <;> simp [inp', yaml, Input.ofYaml, decl, tol] at h ⊢ <;> norm_num [abs_lt] at h
  D := by
    intro i j h; cases i <;> cases j <;> simp [inp', yaml, Input.ofYaml, decl, tol] at h ⊢ <;> norm_num at h
  fc := by
    intro j h; simp [fcN, inp', yaml, Input.ofYaml, decl]
  fd := by
    intro fd h j hj
    simp only [inp', yaml, Input.ofYaml, decl, Option.some.injEq] at h
    subst h; simp

/-- the matrices after normalisation -/
def Sn : Matrix (Q ⊕ Fin 1) (Q ⊕ Fin 1) Rat
  | .inl i, .inl j => if i = j then -1 else 0
  | .inl (.inl true), .inr _ => -1
  | .inr _, .inl (.inl false) => 1
  | _, _ => 0

def Tn : Matrix (Q ⊕ Fin 1) (Q ⊕ Fin 1) Rat
  | .inl (.inl i), .inl (.inl j) => if i = j then -1/2 else 0
  | .inl (.inl i), .inl (.inr j) => if i = j then -1 else 0
  | .inr _, .inr _ => 1
  | _, _ => 0

def hn : Q ⊕ Fin 1 → Rat
  | .inr _ => 1
  | _ => 0

def sysN : Sys Q (Fin 1) Rat := ⟨Sn, Tn, Vm, Tn, hn⟩

theorem norm_ok : normalise (sysOf lay orc) = .ok sysN := by
  have hinv : npInv (Tm.toBlocks₂₂) = .ok (-1 : Matrix (Fin 1) (Fin 1) Rat) := by
    apply npInv_eq_of_mul
    ext i j
    simp [Matrix.mul_apply, toBlocks₂₂, Tm, Matrix.one_apply, Fin.isValue, fin1]
  unfold normalise
  rw [sys_T, sys_W, sys_S, sys_V, sys_h, hinv]
  simp only [Except.ok.injEq, sysN, Sys.mk.injEq]
  refine ⟨?_, ?_, ?_, ?_, ?_⟩
  · ext i j
    rcases i with ((_ | _) | (_ | _)) | i <;> rcases j with ((_ | _) | (_ | _)) | j <;>
      simp [lowerRows, toBlocks₁₁, toBlocks₁₂, toBlocks₂₁, toBlocks₂₂, Sm, Sn]
  · ext i j
    rcases i with ((_ | _) | (_ | _)) | i <;> rcases j with ((_ | _) | (_ | _)) | j <;>
      simp [lowerRows, toBlocks₁₁, toBlocks₁₂, toBlocks₂₁, toBlocks₂₂, Tm, Tn]
  · ext i j
    rcases i with ((_ | _) | (_ | _)) | i <;> rcases j with ((_ | _) | (_ | _)) | j <;>
      simp [lowerRows, toBlocks₁₁, toBlocks₁₂, toBlocks₂₁, toBlocks₂₂, Vm]
  · ext i j
    rcases i with ((_ | _) | (_ | _)) | i <;> rcases j with ((_ | _) | (_ | _)) | j <;>
      simp [lowerRows, toBlocks₁₁, toBlocks₁₂, toBlocks₂₁, toBlocks₂₂, Tm, Tn]
  · ext i
    rcases i with (i | i) | i <;> simp [lowerVec, hm, hn, neg_mulVec]

/-- `r` does not depend on lagged `w` -/
def Inv (c : Cell Q (Fin 1) Rat) : Prop := c.pmat 0 (.inl true) = 0

/-- inverse of the matrix in `get_lam` -/
def invM (c : Matrix (Fin 1) Q Rat) : Matrix Q Q Rat := fun i j => match i with
  | .inl true => if j = .inl true then -1 else c 0 j
  | i => if i = j then -1 else 0

theorem lower_blocks (l : Nat) : (if l ≠ 0 then sysN.S else sysN.V).toBlocks₁₁ = Sn.toBlocks₁₁ ∧
    (if l ≠ 0 then sysN.S else sysN.V).toBlocks₁₂ = Sn.toBlocks₁₂ := by
  by_cases h : l ≠ 0
  · simp [h, sysN]
  · simp only [h, if_false, sysN]
    constructor
    · ext i j
      rcases i with (_ | _) | (_ | _) <;> rcases j with (_ | _) | (_ | _) <;> simp [toBlocks₁₁, Vm, Sn]
    · ext i j
      rcases i with (_ | _) | (_ | _) <;> simp [toBlocks₁₂, Vm, Sn]

theorem inv_ok (l : Nat) (c : Cell Q (Fin 1) Rat) (h : Inv c) :
    npInv ((if l ≠ 0 then sysN.S else sysN.V).toBlocks₁₁ + (if l ≠ 0 then sysN.S else sysN.V).toBlocks₁₂ * c.pmat) = .ok (invM c.pmat) := by
  rw [(lower_blocks l).1, (lower_blocks l).2]
  apply npInv_eq_of_mul
  unfold Inv at h
  ext i j
  rcases i with (_ | _) | (_ | _) <;> rcases j with (_ | _) | (_ | _) <;>
    simp [Matrix.mul_apply, Fintype.sum_sum_type, toBlocks₁₁, toBlocks₁₂, Sn, invM, Matrix.one_apply,
      Fin.isValue, fin1, h]

theorem step_ok (l : Nat) (c : Cell Q (Fin 1) Rat) (h : Inv c) : ∃ c', stepCell sysN l c = .ok c' ∧ Inv c' := by
  unfold stepCell getLam
  dsimp only
  rw [inv_ok l c h]
  refine ⟨_, rfl, ?_⟩
  unfold Inv getOmg
  dsimp only
  by_cases hl : l ≠ 0
  · simp [hl, sysN, Matrix.mul_apply, Fintype.sum_sum_type, toBlocks₁₁, toBlocks₂₁, toBlocks₂₂, Sn, Tn, invM]
  · simp [hl, sysN, Matrix.mul_apply, Fintype.sum_sum_type, toBlocks₁₁, toBlocks₂₁, toBlocks₂₂, Vm, Tn, invM]

/-- `set_par` succeeds for this model, for all `l_max`, `k_max` and schedules. -/
theorem succeeds (lMax kMax : Nat) {sched : Nat → List Nat} (hs : ∀ l < lMax + 1, (sched l).Perm (List.range (kMax + 1))) :
    ∃ mod, Succeeded lay orc lMax kMax sched mod := by
  obtain ⟨t, ht⟩ := preprocess_succeeds (ff lay) (omg := omg) (lam := lam) norm_ok Inv (by unfold Inv; rfl)
    step_ok lMax kMax hs
  refine ⟨⟨t, omg, lam, inp'.xbar, ff lay, (lMax, kMax), hx lay⟩, ?_, hs, oracleOK, noTiny, rfl, ⟨false⟩⟩
  unfold genSys
  dsimp only
  rw [show orc.klein (sysOf lay orc).S (sysOf lay orc).T = .ok (omg, lam) from rfl]
  dsimp only
  rw [ht]

theorem serial_perm (lMax kMax : Nat) : ∀ l < lMax + 1, (serial kMax l).Perm (List.range (kMax + 1)) :=
  fun _ _ => List.Perm.refl _

end Pydsge.Ex16
