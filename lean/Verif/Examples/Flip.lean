import Verif.Props.Solution
import Mathlib.Data.Matrix.Diagonal

/-!
# The same model with some equations multiplied by -1

If `gen_sys` succeeds for a declared model, it succeeds, with suitable results of the external routines, for the declaration in
which some equations have the other sign.  Used as an example for C104.
-/

set_option autoImplicit false
set_option linter.unusedSectionVars false
set_option linter.unusedSimpArgs false

namespace Pydsge.Flip

open Matrix Pydsge.Engine Pydsge.Spec Pydsge.Tools Pydsge.GenSys

variable {E ν ε o K : Type} [Fintype E] [Fintype ν] [Fintype ε] [Fintype o]
  [DecidableEq E] [DecidableEq ν] [DecidableEq ε] [Field K] [LinearOrder K] [IsStrictOrderedRing K]
variable {H z p : Type} [DecidableEq H] [Fintype H] [Fintype z] [Fintype p] [DecidableEq z] [DecidableEq p]

/-- the sign of each row of the augmented system -/
def sgn (s : E → Bool) : Rows E H ε → K
  | .inl (.inl (.inl e)) => if s e then -1 else 1
  | _ => 1

theorem sgn_sq (s : E → Bool) (r : Rows E H ε) : sgn (K := K) s r * sgn s r = 1 := by
  rcases r with ((e | a) | e) | u <;> simp only [sgn, mul_one]
  split_ifs <;> simp

theorem sgn_abs (s : E → Bool) (r : Rows E H ε) : |sgn (K := K) s r| = 1 := by
  rcases r with ((e | a) | e) | u <;> simp only [sgn, abs_one]
  split_ifs <;> simp

/-- the declaration with flipped signs -/
def decl (s : E → Bool) (D : Declared E ν ε K) : Declared E ν ε K :=
  { D with A := fun e v => (if s e then -1 else 1) * D.A e v, B := fun e v => (if s e then -1 else 1) * D.B e v,
           C := fun e v => (if s e then -1 else 1) * D.C e v, D := fun e v => (if s e then -1 else 1) * D.D e v }

theorem abs_sign (b : Bool) (x : K) : |(if b then -1 else 1) * x| = |x| := by
  cases b <;> simp

variable {D : Declared E ν ε K} {Z0 : Matrix o ν K} {Z1 : o → K} {tol : K} (s : E → Bool)

theorem inall_iff (v : ν) : inall tol (yaml (decl s D) Z0 Z1) v ↔ inall tol (yaml D Z0 Z1) v := by
  unfold inall fast0Col
  simp only [yaml, Input.ofYaml, decl, abs_sign]

variable [hdec : DecidablePred (inall tol (yaml D Z0 Z1))]

instance decInst : DecidablePred (inall tol (yaml (decl s D) Z0 Z1)) := fun v => decidable_of_iff _ (inall_iff s v).symm

theorem AA1_eq (r : (E ⊕ H) ⊕ ε) (y : Cols ν H ε) :
    AA1 (H := H) (yaml (decl s D) Z0 Z1) r y = sgn s (.inl r) * AA1 (H := H) (yaml D Z0 Z1) r y := by
  rcases r with (e | a) | e <;> rcases y with (v | b) | e' <;> simp [AA1, sgn, yaml, Input.ofYaml, decl]

theorem BB1_eq (hyb : H → ν) (r : (E ⊕ H) ⊕ ε) (y : Cols ν H ε) :
    BB1 (yaml (decl s D) Z0 Z1) hyb r y = sgn s (.inl r) * BB1 (yaml D Z0 Z1) hyb r y := by
  rcases r with (e | a) | e <;> rcases y with (v | b) | e' <;> simp [BB1, sgn, yaml, Input.ofYaml, decl]

theorem CC1_eq (hyb : H → ν) (r : (E ⊕ H) ⊕ ε) (y : Cols ν H ε) :
    CC1 tol (yaml (decl s D) Z0 Z1) hyb r y = sgn s (.inl r) * CC1 tol (yaml D Z0 Z1) hyb r y := by
  rcases r with (e | a) | e <;> rcases y with (v | b) | e'
  · simp only [CC1, sgn]
    by_cases h : inall tol (yaml D Z0 Z1) v
    · rw [if_pos h, if_pos ((inall_iff s v).2 h), mul_zero]
    · rw [if_neg h, if_neg (fun h' => h ((inall_iff s v).1 h'))]; rfl
  all_goals simp [CC1, sgn, yaml, Input.ofYaml, decl]

theorem fcY_eq (y : Cols ν H ε) : fcY (H := H) (yaml (decl s D) Z0 Z1) y = fcY (H := H) (yaml D Z0 Z1) y := rfl

theorem inq_iff (hyb : H → ν) (y : Cols ν H ε) :
    inq tol (yaml (decl s D) Z0 Z1) hyb y ↔ inq tol (yaml D Z0 Z1) hyb y := by
  unfold inq fast0Col
  simp only [CC1_eq, abs_mul, sgn_abs, one_mul, fcY_eq]

theorem inp_iff (hyb : H → ν) (y : Cols ν H ε) :
    inp tol (yaml (decl s D) Z0 Z1) hyb y ↔ inp tol (yaml D Z0 Z1) hyb y := by
  unfold inp
  rw [inq_iff]
  unfold fast0Col
  simp only [AA1_eq, BB1_eq, abs_mul, sgn_abs, one_mul]

variable (lay : Layout tol (yaml D Z0 Z1) H z p)

def layout : Layout tol (yaml (decl s D) Z0 Z1) H z p where
  hyb := lay.hyb
  zi := lay.zi
  pi := lay.pi
  hyb_inj := lay.hyb_inj
  hyb_range := fun v => (lay.hyb_range v).trans (inall_iff s v).symm
  zi_inj := lay.zi_inj
  zi_range := fun w => (lay.zi_range w).trans (inq_iff s _ _).symm
  pi_inj := lay.pi_inj
  pi_range := fun w => (lay.pi_range w).trans (inp_iff s _ _).symm
  shocks := fun e => (inq_iff s _ _).2 (lay.shocks e)
  square := lay.square

theorem PU_eq : PU (layout s lay) = diagonal (sgn s) * PU lay := by
  ext r j
  rw [diagonal_mul]
  rcases r with r | u <;> rcases j with j | j <;> simp only [PU, BBU, AAc, BB1_eq, AA1_eq, mul_neg, sgn, one_mul, neg_zero]
  all_goals rfl

theorem PR_eq : PR (layout s lay) = diagonal (sgn s) * PR lay := by
  ext r j
  rw [diagonal_mul]
  rcases r with r | u <;> rcases j with j | j <;> simp only [PR, BBR, AAc, BB1_eq, AA1_eq, mul_neg, sgn, one_mul, neg_zero]
  all_goals rfl

theorem MU_eq : MU (layout s lay) = diagonal (sgn s) * MU lay := by
  ext r j
  rw [diagonal_mul]
  rcases r with r | u <;> rcases j with j | j <;> simp only [MU, BBU, CCU, BB1_eq, CC1_eq, mul_neg, sgn, one_mul, neg_zero]
  all_goals rfl

theorem MR_eq : MR (layout s lay) = diagonal (sgn s) * MR lay := by
  ext r j
  rw [diagonal_mul]
  rcases r with r | u <;> rcases j with j | j <;> simp only [MR, BBR, CCR, BB1_eq, CC1_eq, mul_neg, sgn, one_mul, neg_zero]
  all_goals rfl

/-- external routines for the flipped model -/
def oracle (orc : Oracle (Rows E H ε) (z ⊕ ε) p K) : Oracle (Rows E H ε) (z ⊕ ε) p K where
  rq := fun A => ((orc.rq (A * diagonal (sgn s))).1, (orc.rq (A * diagonal (sgn s))).2 * diagonal (sgn s))
  klein := orc.klein

theorem diag_sq : (diagonal (sgn s) * diagonal (sgn s) : Matrix (Rows E H ε) (Rows E H ε) K) = 1 := by
  rw [diagonal_mul_diagonal]
  simp only [sgn_sq, diagonal_one]

variable {orc : Oracle (Rows E H ε) (z ⊕ ε) p K}

theorem rq_arg (A : Matrix (Rows E H ε) ((z ⊕ ε) ⊕ p) K) : (diagonal (sgn s) * A)ᵀ * diagonal (sgn s) = Aᵀ := by
  rw [transpose_mul, diagonal_transpose, Matrix.mul_assoc, diag_sq, Matrix.mul_one]

theorem sys_eq : sysOf (layout s lay) (oracle s orc) = sysOf lay orc := by
  unfold sysOf
  simp only [oracle, MU_eq, MR_eq, PU_eq, PR_eq, rq_arg, Sys.mk.injEq]
  refine ⟨?_, trivial, ?_, trivial, ?_⟩
  · rw [Matrix.mul_assoc, ← Matrix.mul_assoc (diagonal _), diag_sq, Matrix.one_mul]
  · rw [Matrix.mul_assoc, ← Matrix.mul_assoc (diagonal _), diag_sq, Matrix.one_mul]
  · rw [← mulVec_mulVec]
    congr 1
    funext r
    rw [mulVec_diagonal]
    rcases r with r | u
    · simp only [gg, mul_zero]
    · simp only [gg, sgn, one_mul]; rfl

theorem rqSpec {A : Matrix (Rows E H ε) ((z ⊕ ε) ⊕ p) K} {R : Matrix ((z ⊕ ε) ⊕ p) ((z ⊕ ε) ⊕ p) K}
    {Q : Matrix ((z ⊕ ε) ⊕ p) (Rows E H ε) K} (h : RQSpec Aᵀ R Q) :
    RQSpec (diagonal (sgn s) * A)ᵀ R (Q * diagonal (sgn s)) := by
  obtain ⟨h1, h2, h3, h4⟩ := h
  refine ⟨?_, ?_, ?_, h4⟩
  · rw [← Matrix.mul_assoc, h1, transpose_mul, diagonal_transpose]
  · rw [transpose_mul, diagonal_transpose, Matrix.mul_assoc, ← Matrix.mul_assoc Qᵀ, h2, Matrix.one_mul, diag_sq]
  · rw [transpose_mul, diagonal_transpose, Matrix.mul_assoc, ← Matrix.mul_assoc (diagonal _), diag_sq, Matrix.one_mul, h3]

variable {lMax kMax : Nat} {sched : Nat → List Nat} {mod : Model z ε p o K}

theorem succeeded (h : Succeeded lay orc lMax kMax sched mod) :
    Succeeded (layout s lay) (oracle s orc) lMax kMax sched mod where
  gen := by
    have h1 : ff (layout s lay) = ff lay := rfl
    have h2 : hx (layout s lay) = hx lay := rfl
    have := h.gen
    unfold genSys at this ⊢
    rw [sys_eq, h1, h2]
    exact this
  perm := h.perm
  orc := by
    refine ⟨?_, ?_, ?_⟩
    · have := rqSpec s h.orc.rqU
      simpa only [oracle, MU_eq, rq_arg] using this
    · have := rqSpec s h.orc.rqR
      simpa only [oracle, MR_eq, rq_arg] using this
    · intro a b hk
      rw [sys_eq] at hk ⊢
      exact h.orc.klein a b hk
  noTiny := by
    obtain ⟨a1, a2, a3, a4, a5, a6, a7, a8⟩ := h.noTiny
    refine ⟨a1, a2, ?_, ?_, ?_, ?_, a7, a8⟩
    · intro i j hij
      have hij' : |(if s i then -1 else 1) * D.A i j| < tol := hij
      rw [abs_sign] at hij'
      show (if s i then -1 else 1) * D.A i j = 0
      rw [show D.A i j = 0 from a3 i j hij', mul_zero]
    · intro i j hij
      have hij' : |(if s i then -1 else 1) * D.B i j| < tol := hij
      rw [abs_sign] at hij'
      show (if s i then -1 else 1) * D.B i j = 0
      rw [show D.B i j = 0 from a4 i j hij', mul_zero]
    · intro i j hij
      have hij' : |(if s i then -1 else 1) * D.C i j| < tol := hij
      rw [abs_sign] at hij'
      show (if s i then -1 else 1) * D.C i j = 0
      rw [show D.C i j = 0 from a5 i j hij', mul_zero]
    · intro i j hij
      have hij' : |(if s i then -1 else 1) * D.D i j| < tol := hij
      rw [abs_sign] at hij'
      show (if s i then -1 else 1) * D.D i j = 0
      rw [show D.D i j = 0 from a6 i j hij', mul_zero]
  square := h.square
  states := h.states

end Pydsge.Flip
