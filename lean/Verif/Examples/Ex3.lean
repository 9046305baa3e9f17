import Verif.Props.Solution
import Verif.Lemmas.NonSingular
import Mathlib.Data.Rat.Defs
import Mathlib.Algebra.Order.Ring.Rat
import Mathlib.Algebra.Order.Field.Rat
import Mathlib.Tactic.NormNum
import Mathlib.Tactic.FinCases

/-!
# A concrete model in which the constraint binds later

`y = w(-1) - r(+1)`, `w = e`, `r = max(y, -1)`. A negative shock today lowers `y` and makes the constraint bind tomorrow. Equations and
controls are indexed by `Bool`: `false` is the first equation and `y`, `true` is the second equation and `r`.
-/

set_option autoImplicit false
set_option linter.unusedSimpArgs false

namespace Pydsge.Ex3

open Matrix Pydsge.Engine Pydsge.Spec Pydsge.Tools Pydsge.GenSys

/-- variables: `0 = y`, `1 = w`, `2 = r` -/
def decl : Declared Bool (Fin 3) (Fin 1) Rat where
  A := fun i v => if i = false ∧ v = 2 then 1 else 0
  B := fun i v => if (i = false ∧ v = 0) ∨ (i = true ∧ v = 1) then 1 else 0
  C := fun i v => if i = false ∧ v = 1 then -1 else 0
  D := fun i _ => if i then -1 else 0
  cvar := 2
  rb := fun v => if v = 0 then 1 else 0
  rc := 0
  rd := 0
  xbar := -1

abbrev inp' : Input Bool (Fin 3) (Fin 1) (Fin 1) Rat := yaml decl (fun _ v => if v = 0 then 1 else 0) (fun _ => 0)

def tol : Rat := 1 / 1000

theorem fin1 (i : Fin 1) : i = 0 := Subsingleton.elim i 0

theorem not_inall (v : Fin 3) : ¬ inall tol inp' v := by
  rintro ⟨h1, h2⟩
  fin_cases v
  · apply h1; intro i; simp [inp', yaml, Input.ofYaml, decl, tol]
  · apply h1; intro i; simp [inp', yaml, Input.ofYaml, decl, tol]
  · apply h2; intro i; simp [inp', yaml, Input.ofYaml, decl, tol]

instance : DecidablePred (inall tol inp') := fun v => .isFalse (not_inall v)

def hyb : Fin 0 → Fin 3 := Fin.elim0

theorem CC1_v (i : Bool) (v : Fin 3) : CC1 tol inp' hyb (.inl (.inl i)) (.inl (.inl v)) = if i = false ∧ v = 1 then -1 else 0 := by
  show (if inall tol inp' v then 0 else _) = _
  rw [if_neg (not_inall v)]
  rfl

theorem CC1_e (i : Bool) (e' : Fin 1) : CC1 tol inp' hyb (.inl (.inl i)) (.inr e') = if i then -1 else 0 := rfl

theorem inq_w : inq tol inp' hyb (.inl (.inl 1)) := by
  left
  intro h
  have := h (.inl (.inl false))
  rw [CC1_v] at this
  norm_num [tol] at this

theorem inq_e (e : Fin 1) : inq tol inp' hyb (.inr e) := by
  left
  intro h
  have := h (.inl (.inl true))
  rw [CC1_e] at this
  norm_num [tol] at this

theorem not_inq {v : Fin 3} (hv : v ≠ 1) : ¬ inq tol inp' hyb (.inl (.inl v)) := by
  rintro (h | h)
  · apply h
    rintro ((r | r) | r)
    · rw [CC1_v]; simp [hv, tol]
    · exact r.elim0
    · simp [CC1, tol]
  · apply h
    simp [fast0, fcY, fcN, inp', yaml, Input.ofYaml, decl, tol]

theorem inp_y : inp tol inp' hyb (.inl (.inl 0)) := by
  refine ⟨Or.inr ?_, not_inq (by decide)⟩
  intro h
  have := h (.inl (.inl false))
  simp [BB1, inp', yaml, Input.ofYaml, decl, tol] at this
  norm_num at this

theorem inp_r : inp tol inp' hyb (.inl (.inl 2)) := by
  refine ⟨Or.inl ?_, not_inq (by decide)⟩
  intro h
  have := h (.inl (.inl false))
  simp [AA1, inp', yaml, Input.ofYaml, decl, tol] at this
  norm_num at this

def lay : Layout tol inp' (Fin 0) (Fin 1) Bool where
  hyb := hyb
  zi := fun _ => .inl 1
  pi := fun b => .inl (if b then 2 else 0)
  hyb_inj := fun a => a.elim0
  hyb_range := fun v => ⟨fun ⟨h, _⟩ => h.elim0, fun h => absurd h (not_inall v)⟩
  zi_inj := fun a b _ => Subsingleton.elim a b
  zi_range := by
    rintro (v | h)
    · by_cases hv : v = 1
      · subst hv; exact ⟨fun _ => inq_w, fun _ => ⟨0, rfl⟩⟩
      · refine ⟨?_, fun h => absurd h (not_inq hv)⟩
        rintro ⟨i, h⟩
        exact absurd (Sum.inl.inj h).symm hv
    · exact h.elim0
  pi_inj := by
    intro a b h
    rcases a with _ | _ <;> rcases b with _ | _ <;> simp at h ⊢
  pi_range := by
    rintro (v | h)
    · fin_cases v
      · exact ⟨fun _ => inp_y, fun _ => ⟨false, rfl⟩⟩
      · refine ⟨?_, fun h => absurd inq_w h.2⟩
        rintro ⟨i, h⟩
        rcases i with _ | _ <;> simp at h
      · exact ⟨fun _ => inp_r, fun _ => ⟨true, rfl⟩⟩
    · exact h.elim0
  shocks := inq_e
  square := rfl

abbrev R := Rows Bool (Fin 0) (Fin 1)
abbrev Q := Fin 1 ⊕ Fin 1

/-- the orthogonal factor: a permutation of the rows -/
def Qm : Matrix (Q ⊕ Bool) R Rat
  | .inl (.inl _), .inl (.inl (.inl true)) => 1
  | .inl (.inr _), .inl (.inr _) => 1
  | .inr false, .inl (.inl (.inl false)) => 1
  | .inr true, .inr _ => 1
  | _, _ => 0

def omg : Matrix Bool Q Rat := Matrix.of fun _ j => match j with
  | .inl _ => 1
  | .inr _ => -1

def lam : Matrix Q Q Rat := Matrix.of fun i j => match i, j with
  | .inl _, .inr _ => 1
  | _, _ => 0

def orc : Oracle R Q Bool Rat where
  rq := fun A => (A * Qmᵀ, Qm)
  klein := fun _ _ => .ok (omg, lam)

theorem QQt : Qm * Qmᵀ = 1 := by
  ext i j
  rcases i with (i | i) | (_ | _) <;> rcases j with (j | j) | (_ | _) <;>
    simp [Matrix.mul_apply, Fintype.sum_sum_type, Qm, Matrix.one_apply] <;> exact Subsingleton.elim _ _

theorem QtQ : Qmᵀ * Qm = 1 := by
  ext i j
  rcases i with (((_ | _) | i) | i) | i <;> rcases j with (((_ | _) | j) | j) | j <;>
    first | exact i.elim0 | exact j.elim0 | (simp [Matrix.mul_apply, Fintype.sum_sum_type, Qm, Matrix.one_apply] <;> exact Subsingleton.elim _ _) | simp [Matrix.mul_apply, Fintype.sum_sum_type, Qm, Matrix.one_apply]

def Sm : Matrix (Q ⊕ Bool) (Q ⊕ Bool) Rat
  | .inl (.inl _), .inl (.inl _) => -1
  | .inl (.inr _), .inl (.inr _) => -1
  | .inr false, .inr true => -1
  | _, _ => 0

def Tm : Matrix (Q ⊕ Bool) (Q ⊕ Bool) Rat
  | .inl (.inl _), .inl (.inr _) => -1
  | .inr false, .inl (.inl _) => -1
  | .inr false, .inr false => 1
  | .inr true, .inr false => 1
  | .inr true, .inr true => -1
  | _, _ => 0

def Wm : Matrix (Q ⊕ Bool) (Q ⊕ Bool) Rat
  | .inl (.inl _), .inl (.inr _) => -1
  | .inr false, .inl (.inl _) => -1
  | .inr false, .inr false => 1
  | .inr true, .inr true => -1
  | _, _ => 0

def hm : Q ⊕ Bool → Rat
  | .inr true => -1
  | _ => 0

theorem sys_S : (sysOf lay orc).S = Sm := by
  ext i j
  rcases i with (i | i) | (_ | _) <;> rcases j with (j | j) | (_ | _) <;>
    simp [sysOf, orc, Matrix.mul_apply, Fintype.sum_sum_type, Qm, PU, BBU, AAc, AA1, BB1, fbY, fbN, qi, lay, Sm,
      inp', yaml, Input.ofYaml, decl, fin1]

theorem sys_V : (sysOf lay orc).V = Sm := by
  ext i j
  rcases i with (i | i) | (_ | _) <;> rcases j with (j | j) | (_ | _) <;>
    simp [sysOf, orc, Matrix.mul_apply, Fintype.sum_sum_type, Qm, PR, BBR, AAc, AA1, BB1, fbY, fbN, qi, lay, Sm,
      inp', yaml, Input.ofYaml, decl, fin1]

theorem MU_w (i : Bool) (j : Fin 1) : MU lay (.inl (.inl (.inl i))) (.inl (.inl j)) = if i then 0 else -1 := by
  have : MU lay (.inl (.inl (.inl i))) (.inl (.inl j)) = CC1 tol inp' hyb (.inl (.inl i)) (.inl (.inl 1)) := rfl
  rw [this, CC1_v]
  rcases i with _ | _ <;> simp

theorem MR_w (i : Bool) (j : Fin 1) : MR lay (.inl (.inl (.inl i))) (.inl (.inl j)) = if i then 0 else -1 := by
  have : MR lay (.inl (.inl (.inl i))) (.inl (.inl j)) = CC1 tol inp' hyb (.inl (.inl i)) (.inl (.inl 1)) := rfl
  rw [this, CC1_v]
  rcases i with _ | _ <;> simp

theorem sys_T : (sysOf lay orc).T = Tm := by
  ext i j
  rcases i with (i | i) | (_ | _) <;> rcases j with (j | j) | (_ | _) <;>
    simp [sysOf, orc, Matrix.mul_apply, Fintype.sum_sum_type, Qm, MU_w] <;>
    simp [MU, BBU, CCU, CC1, BB1, fbY, fbN, fcY, fcN, qi, lay, Tm,
      inp', yaml, Input.ofYaml, decl, not_inall, fin1]

theorem sys_W : (sysOf lay orc).W = Wm := by
  ext i j
  rcases i with (i | i) | (_ | _) <;> rcases j with (j | j) | (_ | _) <;>
    simp [sysOf, orc, Matrix.mul_apply, Fintype.sum_sum_type, Qm, MR_w] <;>
    simp [MR, BBR, CCR, CC1, BB1, fbY, fbN, fcY, fcN, qi, lay, Wm,
      inp', yaml, Input.ofYaml, decl, not_inall, fin1]

theorem sys_h : (sysOf lay orc).h = hm := by
  ext i
  rcases i with (i | i) | (_ | _) <;>
    simp [sysOf, orc, mulVec, dotProduct, Fintype.sum_sum_type, Qm, gg, hm, inp', yaml, Input.ofYaml, decl]

theorem rq_spec (A : Matrix (Q ⊕ Bool) R Rat) (h : ∀ i j, (A * Qmᵀ) (.inr i) (.inl j) = 0) : RQSpec A (A * Qmᵀ) Qm :=
  ⟨by rw [Matrix.mul_assoc, QtQ, Matrix.mul_one], QtQ, QQt, h⟩

theorem oracleOK : OracleOK lay orc where
  rqU := by
    apply rq_spec
    intro i j
    have := congrFun (congrFun sys_T (.inl j)) (.inr i)
    rcases j with j | j <;> rcases i with _ | _ <;> exact this
  rqR := by
    apply rq_spec
    intro i j
    have := congrFun (congrFun sys_W (.inl j)) (.inr i)
    rcases j with j | j <;> rcases i with _ | _ <;> exact this
  klein := by
    intro o l h
    simp only [orc, Except.ok.injEq, Prod.mk.injEq] at h
    obtain ⟨rfl, rfl⟩ := h
    intro q0
    rw [sys_S, sys_T]
    funext i
    rcases i with (i | i) | (_ | _) <;>
      simp [mulVec, dotProduct, Fintype.sum_sum_type, Sm, Tm, omg, lam, Matrix.mul_apply, -mulVec_mulVec]

theorem noTiny : NoTiny tol inp' where
  pos := by norm_num [tol]
  le_one := by norm_num [tol]
  A := by
    intro i j h
    rcases i with _ | _ <;> fin_cases j <;> simp [inp', yaml, Input.ofYaml, decl, tol] at h ⊢ <;> norm_num at h
  B := by
    intro i j h
    rcases i with _ | _ <;> fin_cases j <;> simp [inp', yaml, Input.ofYaml, decl, tol] at h ⊢ <;> norm_num at h
  C := by
    intro i j h
    rcases i with _ | _ <;> fin_cases j <;> simp [inp', yaml, Input.ofYaml, decl, tol] at h ⊢ <;> norm_num at h
  D := by
    intro i j h
    rcases i with _ | _ <;> simp [inp', yaml, Input.ofYaml, decl, tol] at h ⊢ <;> norm_num at h
  fc := by
    intro j h; simp [fcN, inp', yaml, Input.ofYaml, decl]
  fd := by
    intro fd h j hj
    simp only [inp', yaml, Input.ofYaml, decl, Option.some.injEq] at h
    subst h; simp

/-- the matrices after normalisation -/
def Sn : Matrix (Q ⊕ Bool) (Q ⊕ Bool) Rat
  | .inl (.inl _), .inl (.inl _) => -1
  | .inl (.inr _), .inl (.inr _) => -1
  | .inr _, .inr true => -1
  | _, _ => 0

def Tn : Matrix (Q ⊕ Bool) (Q ⊕ Bool) Rat
  | .inl (.inl _), .inl (.inr _) => -1
  | .inr _, .inl (.inl _) => -1
  | .inr false, .inr false => 1
  | .inr true, .inr true => 1
  | _, _ => 0

def Wn : Matrix (Q ⊕ Bool) (Q ⊕ Bool) Rat
  | .inl (.inl _), .inl (.inr _) => -1
  | .inr false, .inl (.inl _) => -1
  | .inr false, .inr false => 1
  | .inr true, .inr true => 1
  | _, _ => 0

def hn : Q ⊕ Bool → Rat
  | .inr true => 1
  | _ => 0

def sysN : Sys Q Bool Rat := ⟨Sn, Tn, Sm, Wn, hn⟩

def invT : Matrix Bool Bool Rat := Matrix.of fun i j => match i, j with
  | false, false => 1
  | false, true => 0
  | true, false => 1
  | true, true => -1

def invW : Matrix Bool Bool Rat := Matrix.of fun i j => match i, j with
  | false, false => 1
  | true, true => -1
  | _, _ => 0

theorem norm_ok : normalise (sysOf lay orc) = .ok sysN := by
  have hT : npInv (Tm.toBlocks₂₂) = .ok invT := by
    apply npInv_eq_of_mul
    ext i j
    rcases i with _ | _ <;> rcases j with _ | _ <;> simp [Matrix.mul_apply, toBlocks₂₂, Tm, Matrix.one_apply, invT]
  have hW : npInv (Wm.toBlocks₂₂) = .ok invW := by
    apply npInv_eq_of_mul
    ext i j
    rcases i with _ | _ <;> rcases j with _ | _ <;> simp [Matrix.mul_apply, toBlocks₂₂, Wm, Matrix.one_apply, invW]
  unfold normalise
  rw [sys_T, sys_W, sys_S, sys_V, sys_h, hT, hW]
  simp only [Except.ok.injEq, sysN, Sys.mk.injEq]
  refine ⟨?_, ?_, ?_, ?_, ?_⟩
  · ext i j
    rcases i with (i | i) | (_ | _) <;> rcases j with (j | j) | (_ | _) <;>
      simp [lowerRows, toBlocks₁₁, toBlocks₁₂, toBlocks₂₁, toBlocks₂₂, Sm, Sn, invT, Matrix.mul_apply]
  · ext i j
    rcases i with (i | i) | (_ | _) <;> rcases j with (j | j) | (_ | _) <;>
      simp [lowerRows, toBlocks₁₁, toBlocks₁₂, toBlocks₂₁, toBlocks₂₂, Tm, Tn, invT, Matrix.mul_apply]
  · ext i j
    rcases i with (i | i) | (_ | _) <;> rcases j with (j | j) | (_ | _) <;>
      simp [lowerRows, toBlocks₁₁, toBlocks₁₂, toBlocks₂₁, toBlocks₂₂, Sm, invW, Matrix.mul_apply]
  · ext i j
    rcases i with (i | i) | (_ | _) <;> rcases j with (j | j) | (_ | _) <;>
      simp [lowerRows, toBlocks₁₁, toBlocks₁₂, toBlocks₂₁, toBlocks₂₂, Wm, Wn, invW, Matrix.mul_apply]
  · ext i
    rcases i with (i | i) | (_ | _) <;> simp [lowerVec, hm, hn, invW, mulVec, dotProduct]

theorem inv_ok (l : Nat) (c : Cell Q Bool Rat) :
    npInv ((if l ≠ 0 then sysN.S else sysN.V).toBlocks₁₁ + (if l ≠ 0 then sysN.S else sysN.V).toBlocks₁₂ * c.pmat) =
      .ok (-1 : Matrix Q Q Rat) := by
  apply npInv_eq_of_mul
  ext i j
  by_cases h : l ≠ 0
  · simp only [h, if_true, sysN]
    rcases i with i | i <;> rcases j with j | j <;>
      simp [h, Matrix.mul_apply, Fintype.sum_sum_type, toBlocks₁₁, toBlocks₁₂, Sn, Matrix.one_apply, fin1]
  · simp only [h, if_false, sysN]
    rcases i with i | i <;> rcases j with j | j <;>
      simp [h, Matrix.mul_apply, Fintype.sum_sum_type, toBlocks₁₁, toBlocks₁₂, Sm, Matrix.one_apply, fin1]

/-- the next cell: `y = w(-1) - r(+1)`, and `r` is `y` or the bound -/
def next (l : Nat) (c : Cell Q Bool Rat) : Cell Q Bool Rat where
  pmat := Matrix.of fun i j => match i, j with
    | false, .inl _ => 1
    | false, .inr _ => -(c.pmat true (.inl 0))
    | true, .inl _ => if l ≠ 0 then 1 else 0
    | true, .inr _ => if l ≠ 0 then -(c.pmat true (.inl 0)) else 0
  pterm := fun i => if i then (if l ≠ 0 then -(c.pterm true) else -1) else -(c.pterm true)
  qmat := lam
  qterm := 0

theorem cell_ext {c c' : Cell Q Bool Rat} (h1 : c.pmat = c'.pmat) (h2 : c.pterm = c'.pterm) (h3 : c.qmat = c'.qmat)
    (h4 : c.qterm = c'.qterm) : c = c' := by
  cases c; cases c'; simp only at h1 h2 h3 h4; subst h1 h2 h3 h4; rfl

theorem step_ok (l : Nat) (c : Cell Q Bool Rat) : stepCell sysN l c = .ok (next l c) := by
  unfold stepCell getLam
  dsimp only
  rw [inv_ok l c]
  dsimp only
  rw [Except.ok.injEq]
  have hlam : (-1 : Matrix Q Q Rat) * (if l ≠ 0 then sysN.T else sysN.W).toBlocks₁₁ = lam := by
    ext i j
    by_cases h : l ≠ 0
    · rcases i with i | i <;> rcases j with j | j <;> simp [h, sysN, toBlocks₁₁, Tn, lam]
    · rcases i with i | i <;> rcases j with j | j <;> simp [h, sysN, toBlocks₁₁, Wn, lam]
  have hxi : (-1 : Matrix Q Q Rat) *ᵥ ((if l ≠ 0 then 0 else fun i => sysN.h (.inl i)) -
      (if l ≠ 0 then sysN.S else sysN.V).toBlocks₁₂ *ᵥ c.pterm) = 0 := by
    ext i
    by_cases h : l ≠ 0
    · rcases i with i | i <;> simp [h, sysN, toBlocks₁₂, Sn, mulVec, dotProduct]
    · rcases i with i | i <;> simp [h, sysN, toBlocks₁₂, Sm, mulVec, dotProduct, hn]
  rw [hlam, hxi]
  apply cell_ext
  · ext i j
    by_cases h : l ≠ 0
    · rcases i with _ | _ <;> rcases j with j | j <;>
        simp [next, getOmg, h, sysN, toBlocks₂₁, toBlocks₂₂, Sn, Tn, lam, Matrix.mul_apply, Fintype.sum_sum_type]
    · rcases i with _ | _ <;> rcases j with j | j <;>
        simp [next, getOmg, h, sysN, toBlocks₂₁, toBlocks₂₂, Sm, Wn, lam, Matrix.mul_apply, Fintype.sum_sum_type]
  · ext i
    by_cases h : l ≠ 0
    · rcases i with _ | _ <;> simp [next, getOmg, h, sysN, toBlocks₂₁, toBlocks₂₂, Sn, mulVec, dotProduct]
    · rcases i with _ | _ <;> simp [next, getOmg, h, sysN, toBlocks₂₁, toBlocks₂₂, Sm, hn, mulVec, dotProduct]
  · rfl
  · rfl

/-- `set_par` succeeds for this model, for all `l_max`, `k_max` and schedules. -/
theorem succeeds (lMax kMax : Nat) {sched : Nat → List Nat} (hs : ∀ l < lMax + 1, (sched l).Perm (List.range (kMax + 1))) :
    ∃ mod, Succeeded lay orc lMax kMax sched mod := by
  obtain ⟨t, ht⟩ := preprocess_succeeds (ff lay) (omg := omg) (lam := lam) norm_ok (fun _ => True) trivial
    (fun l c _ => ⟨_, step_ok l c, trivial⟩) lMax kMax hs
  refine ⟨⟨t, omg, lam, inp'.xbar, ff lay, (lMax, kMax), hx lay⟩, ?_, hs, oracleOK, noTiny, rfl, ⟨0⟩⟩
  unfold genSys
  dsimp only
  rw [show orc.klein (sysOf lay orc).S (sysOf lay orc).T = .ok (omg, lam) from rfl]
  dsimp only
  rw [ht]

end Pydsge.Ex3
