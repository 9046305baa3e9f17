import Verif.Examples.Ex1

/-!
# A model without lagged variables

`y + 1/2 r = e`, constraint `r = max(y, -1)`: `gen_sys` solves it (`y = r = 2/3 e`), and there are no states.
-/

set_option autoImplicit false
set_option linter.unusedSimpArgs false

namespace Pydsge.Ex4

open Matrix Pydsge.Engine Pydsge.Spec Pydsge.Tools Pydsge.GenSys

/-- variables: `0 = y`, `1 = r` -/
def decl : Declared (Fin 1) (Fin 2) (Fin 1) Rat where
  A := 0
  B := fun _ v => if v = 0 then 1 else 1/2
  C := 0
  D := fun _ _ => -1
  cvar := 1
  rb := fun v => if v = 0 then 1 else 0
  rc := 0
  rd := 0
  xbar := -1

def Z0 : Matrix (Fin 1) (Fin 2) Rat := fun _ v => if v = 0 then 1 else 0
def Z1 : Fin 1 → Rat := 0

abbrev inp' : Input (Fin 1) (Fin 2) (Fin 1) (Fin 1) Rat := yaml decl Z0 Z1

def tol : Rat := 1 / 1000

theorem not_inall (v : Fin 2) : ¬ inall tol inp' v := by
  rintro ⟨h1, _⟩
  apply h1; intro i
  simp [yaml, Input.ofYaml, decl, tol]

instance : DecidablePred (inall tol inp') := fun v => .isFalse (not_inall v)

def hyb : Fin 0 → Fin 2 := Fin.elim0

theorem CC1_v (e : Fin 1) (v : Fin 2) : CC1 tol inp' hyb (.inl (.inl e)) (.inl (.inl v)) = 0 := by
  show (if inall tol inp' v then 0 else _) = _
  rw [if_neg (not_inall v)]
  rfl

theorem CC1_e (e e' : Fin 1) : CC1 tol inp' hyb (.inl (.inl e)) (.inr e') = -1 := rfl

theorem inq_e (e : Fin 1) : inq tol inp' hyb (.inr e) := by
  left
  intro h
  have := h (.inl (.inl 0))
  rw [CC1_e] at this
  norm_num [abs_lt, tol] at this

theorem not_inq (v : Fin 2) : ¬ inq tol inp' hyb (.inl (.inl v)) := by
  rintro (h | h)
  · apply h
    rintro ((r | r) | r)
    · rw [CC1_v]; norm_num [tol]
    · exact r.elim0
    · simp [CC1, tol]
  · apply h
    simp [fast0, fcY, fcN, yaml, Input.ofYaml, decl, tol]

theorem inp_v (v : Fin 2) : inp tol inp' hyb (.inl (.inl v)) := by
  refine ⟨Or.inr ?_, not_inq v⟩
  intro h
  have := h (.inl (.inl 0))
  fin_cases v <;> simp [BB1, yaml, Input.ofYaml, decl, tol] at this <;> norm_num [abs_lt] at this

/-- the masks: no states, both variables are controls -/
def lay : Layout tol inp' (Fin 0) (Fin 0) (Fin 2) where
  hyb := hyb
  zi := Fin.elim0
  pi := fun v => .inl v
  hyb_inj := fun a => a.elim0
  hyb_range := fun v => ⟨fun ⟨h, _⟩ => h.elim0, fun h => absurd h (not_inall v)⟩
  zi_inj := fun a => a.elim0
  zi_range := by
    rintro (v | h)
    · exact ⟨fun ⟨i, _⟩ => i.elim0, fun h => absurd h (not_inq v)⟩
    · exact h.elim0
  pi_inj := fun a b h => by simpa using h
  pi_range := by
    rintro (v | h)
    · exact ⟨fun _ => inp_v v, fun _ => ⟨v, rfl⟩⟩
    · exact h.elim0
  shocks := inq_e
  square := rfl

abbrev R := Rows (Fin 1) (Fin 0) (Fin 1)
abbrev Q := Fin 0 ⊕ Fin 1

/-- the orthogonal factor: a permutation of the rows (equation, shock, constraint) -/
def Qm : Matrix (Q ⊕ Fin 2) R Rat := Matrix.of fun i j => match i, j with
  | .inl (.inr _), .inl (.inr _) => 1
  | .inr i, .inl (.inl _) => if i = 0 then 1 else 0
  | .inr i, .inr _ => if i = 1 then 1 else 0
  | _, _ => 0

def omg : Matrix (Fin 2) Q Rat := fun _ _ => 2/3

def lam : Matrix Q Q Rat := 0

def orc : Oracle R Q (Fin 2) Rat where
  rq := fun A => (A * Qmᵀ, Qm)
  klein := fun _ _ => .ok (omg, lam)

theorem QQt : Qm * Qmᵀ = 1 := by
  ext i j
  rcases i with (i | i) | i <;> rcases j with (j | j) | j <;> first | exact i.elim0 | exact j.elim0 | skip
  all_goals (try fin_cases i) <;> (try fin_cases j) <;> simp [Matrix.mul_apply, Fintype.sum_sum_type, Qm, Matrix.one_apply]

theorem QtQ : Qmᵀ * Qm = 1 := by
  ext i j
  rcases i with ((i | i) | i) | i <;> rcases j with ((j | j) | j) | j <;> first | exact i.elim0 | exact j.elim0 | skip
  all_goals simp [Matrix.mul_apply, Fintype.sum_sum_type, Qm, Matrix.one_apply, eq_iff_true_of_subsingleton]

/-- entries of the system matrices -/
def Sm : Matrix (Q ⊕ Fin 2) (Q ⊕ Fin 2) Rat := Matrix.of fun i j => match i, j with
  | .inl _, .inl _ => -1
  | _, _ => 0

def Tm : Matrix (Q ⊕ Fin 2) (Q ⊕ Fin 2) Rat := Matrix.of fun i j => match i, j with
  | .inr i, .inl _ => if i = 0 then -1 else 0
  | .inr i, .inr j => if i = 0 then (if j = 0 then 1 else 1/2) else (if j = 0 then 1 else -1)
  | _, _ => 0

def Wm : Matrix (Q ⊕ Fin 2) (Q ⊕ Fin 2) Rat := Matrix.of fun i j => match i, j with
  | .inr i, .inl _ => if i = 0 then -1 else 0
  | .inr i, .inr j => if i = 0 then (if j = 0 then 1 else 1/2) else (if j = 0 then 0 else -1)
  | _, _ => 0

theorem sys_S : (sysOf lay orc).S = Sm := by
  ext i j
  rcases i with (i | i) | i <;> rcases j with (j | j) | j <;> first | exact i.elim0 | exact j.elim0 | skip
  all_goals (try fin_cases i) <;> (try fin_cases j) <;>
    simp [sysOf, orc, Matrix.mul_apply, Fintype.sum_sum_type, Qm, PU, BBU, AAc, AA1, BB1, fbY, fbN, qi, lay, Sm,
      yaml, Input.ofYaml, decl]

theorem sys_V : (sysOf lay orc).V = Sm := by
  ext i j
  rcases i with (i | i) | i <;> rcases j with (j | j) | j <;> first | exact i.elim0 | exact j.elim0 | skip
  all_goals (try fin_cases i) <;> (try fin_cases j) <;>
    simp [sysOf, orc, Matrix.mul_apply, Fintype.sum_sum_type, Qm, PR, BBR, AAc, AA1, BB1, fbY, fbN, qi, lay, Sm,
      yaml, Input.ofYaml, decl]

theorem sys_T : (sysOf lay orc).T = Tm := by
  ext i j
  rcases i with (i | i) | i <;> rcases j with (j | j) | j <;> first | exact i.elim0 | exact j.elim0 | skip
  all_goals (try fin_cases i) <;> (try fin_cases j) <;>
    simp [sysOf, orc, Matrix.mul_apply, Fintype.sum_sum_type, Qm] <;>
    simp [MU, BBU, CCU, CC1, BB1, fbY, fbN, fcY, fcN, qi, lay, Tm, yaml, Input.ofYaml, decl]

theorem sys_W : (sysOf lay orc).W = Wm := by
  ext i j
  rcases i with (i | i) | i <;> rcases j with (j | j) | j <;> first | exact i.elim0 | exact j.elim0 | skip
  all_goals (try fin_cases i) <;> (try fin_cases j) <;>
    simp [sysOf, orc, Matrix.mul_apply, Fintype.sum_sum_type, Qm] <;>
    simp [MR, BBR, CCR, CC1, BB1, fbY, fbN, fcY, fcN, qi, lay, Wm, yaml, Input.ofYaml, decl]

theorem rq_spec (A : Matrix (Q ⊕ Fin 2) R Rat) (h : ∀ i j, (A * Qmᵀ) (.inr i) (.inl j) = 0) : RQSpec A (A * Qmᵀ) Qm :=
  ⟨by rw [Matrix.mul_assoc, QtQ, Matrix.mul_one], QtQ, QQt, h⟩

theorem oracleOK : OracleOK lay orc where
  rqU := by
    apply rq_spec
    intro i j
    have := congrFun (congrFun sys_T (.inl j)) (.inr i)
    exact this
  rqR := by
    apply rq_spec
    intro i j
    have := congrFun (congrFun sys_W (.inl j)) (.inr i)
    exact this
  klein := by
    intro o l h
    simp only [orc, Except.ok.injEq, Prod.mk.injEq] at h
    obtain ⟨rfl, rfl⟩ := h
    intro q0
    rw [sys_S, sys_T]
    funext i
    rcases i with (i | i) | i <;> first | exact i.elim0 | skip
    all_goals (try fin_cases i) <;>
      simp [mulVec, dotProduct, Fintype.sum_sum_type, Sm, Tm, omg, lam, Matrix.mul_apply, -mulVec_mulVec] <;> ring

theorem noTiny : NoTiny tol inp' where
  pos := by norm_num [tol]
  le_one := by norm_num [tol]
  A := by
    intro i j h; simp [yaml, Input.ofYaml, decl]
  B := by
    intro i j h; fin_cases j <;> simp [yaml, Input.ofYaml, decl, tol] at h ⊢ <;> norm_num [abs_lt] at h
  C := by
    intro i j h; simp [yaml, Input.ofYaml, decl]
  D := by
    intro i j h; simp [yaml, Input.ofYaml, decl, tol] at h ⊢ <;> norm_num at h
  fc := by
    intro j h; simp [fcN, yaml, Input.ofYaml, decl]
  fd := by
    intro fd h j hj
    simp only [yaml, Input.ofYaml, decl, Option.some.injEq] at h
    subst h; simp

theorem norm_ok : ∃ M, normalise (sysOf lay orc) = .ok M ∧ M.S.toBlocks₁₁ = -1 ∧ M.S.toBlocks₁₂ = 0 ∧ M.V.toBlocks₁₁ = -1 ∧
    M.V.toBlocks₁₂ = 0 := by
  have hinv : npInv (Tm.toBlocks₂₂) = .ok (!![2/3, 1/3; 2/3, -2/3] : Matrix (Fin 2) (Fin 2) Rat) := by
    apply npInv_eq_of_mul
    ext i j
    fin_cases i <;> fin_cases j <;> simp [Matrix.mul_apply, toBlocks₂₂, Tm, Matrix.one_apply] <;> norm_num
  have hinv' : npInv (Wm.toBlocks₂₂) = .ok (!![1, 1/2; 0, -1] : Matrix (Fin 2) (Fin 2) Rat) := by
    apply npInv_eq_of_mul
    ext i j
    fin_cases i <;> fin_cases j <;> simp [Matrix.mul_apply, toBlocks₂₂, Wm, Matrix.one_apply]
  unfold normalise
  rw [sys_T, sys_W, sys_S, sys_V, hinv, hinv']
  refine ⟨_, rfl, ?_, ?_, ?_, ?_⟩ <;> ext i j <;> rcases i with i | i <;> first | exact i.elim0 | skip
  all_goals first | (rcases j with j | j <;> first | exact j.elim0 | skip) | skip
  all_goals simp [lowerRows, Sm, toBlocks₁₁, toBlocks₁₂, Matrix.one_apply, eq_iff_true_of_subsingleton]

/-- `set_par` succeeds for this model, for all `l_max`, `k_max` and schedules. -/
theorem succeeds (lMax kMax : Nat) {sched : Nat → List Nat} (hs : ∀ l < lMax + 1, (sched l).Perm (List.range (kMax + 1))) :
    ∃ mod, genSys lay orc lMax kMax sched = .ok mod := by
  obtain ⟨M, hM, h1, h2, h3, h4⟩ := norm_ok
  obtain ⟨t, ht⟩ := preprocess_succeeds (ff lay) (omg := omg) (lam := lam) hM (fun _ => True) trivial
    (by
      intro l c _
      have hi : npInv ((if l ≠ 0 then M.S else M.V).toBlocks₁₁ + (if l ≠ 0 then M.S else M.V).toBlocks₁₂ * c.pmat) = .ok (-1) := by
        apply npInv_eq_of_mul
        by_cases hl : l ≠ 0
        · simp only [if_pos hl, h1, h2]; simp
        · simp only [if_neg hl, h3, h4]; simp
      unfold stepCell getLam
      dsimp only
      rw [hi]
      exact ⟨_, rfl, trivial⟩) lMax kMax hs
  refine ⟨⟨t, omg, lam, inp'.xbar, ff lay, (lMax, kMax), hx lay⟩, ?_⟩
  unfold genSys
  dsimp only
  rw [show orc.klein (sysOf lay orc).S (sysOf lay orc).T = .ok (omg, lam) from rfl]
  dsimp only
  rw [ht]

end Pydsge.Ex4
