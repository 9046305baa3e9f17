import Verif.Examples.Ex3
import Verif.Props.Engine

/-! # A transition of the third example: the constraint binds in the next period -/

set_option autoImplicit false
set_option linter.unusedSimpArgs false

namespace Pydsge.Ex3

open Matrix Pydsge.Engine Pydsge.Spec Pydsge.Tools Pydsge.GenSys

theorem fp1_eq : (ff lay).fp1 = fun i => if i then 0 else 1 := by
  ext i
  rcases i with _ | _ <;> simp [ff, lay, inp', yaml, Input.ofYaml, decl, fbY, fbN]

theorem fq1_eq : (ff lay).fq1 = 0 := by
  ext i
  rcases i with i | i <;> simp [ff, qi, lay, fbY, fbN, inp', yaml, Input.ofYaml, decl]

theorem fq0_eq : (ff lay).fq0 = 0 := by
  ext i
  rcases i with i | i <;> simp [ff, qi, lay, fcY, fcN, inp', yaml, Input.ofYaml, decl]

/-- `(0,1)`: `r` at the bound today. -/
def c01 : Cell Q Bool Rat := next 0 ⟨omg, 0, lam, 0⟩

/-- `(1,1)`: `r` at the bound tomorrow. -/
def c11 : Cell Q Bool Rat := next 1 c01

theorem cells {lMax kMax : Nat} {mod : Model (Fin 1) (Fin 1) Bool (Fin 1) Rat} {c : Nat → Nat → Cell Q Bool Rat}
    (hl : 1 ≤ lMax) (hk : 1 ≤ kMax) (h : SolvedModel lay orc lMax kMax mod c) :
    c 0 0 = ⟨omg, 0, lam, 0⟩ ∧ c 0 1 = c01 ∧ c 1 1 = c11 := by
  obtain ⟨M', hS⟩ := h.eng
  have hM : M' = sysN := by
    have := hS.norm
    rw [norm_ok] at this
    simpa using this.symm
  have hkl := h.kl
  simp only [orc, Except.ok.injEq, Prod.mk.injEq] at hkl
  have h0 := hS.complete.start
  rw [← hkl.1, ← hkl.2] at h0
  have h1 := hS.complete.step 0 1 (by omega) (by omega) (by simp)
  rw [lastIdx_zero, hM, step_ok] at h1
  simp only [Nat.sub_self, h0, Except.ok.injEq] at h1
  have h2 := hS.complete.step 1 1 (by omega) (by omega) (by simp)
  rw [lastIdx_pos (by simp), hM, step_ok] at h2
  simp only [Nat.sub_self, Except.ok.injEq, ← h1] at h2
  exact ⟨h0, h1.symm, h2.symm⟩

/-- A negative shock from the steady state: the search returns `(1,1)`, and `y = r = 1`, `w = -2`. -/
theorem later_run {sched : Nat → List Nat}
    {mod : Model (Fin 1) (Fin 1) Bool (Fin 1) Rat} (h : Succeeded lay orc 3 1 sched mod) :
    ∃ r, tFunc mod 0 (fun _ => -2) .none false = .ok r ∧ r.l = 1 ∧ r.k = 1 ∧ r.flag = 0 ∧
      r.state = fun i => match i with
        | .inl _ => 1
        | .inr _ => -2 := by
  obtain ⟨c, hm⟩ := genSys_ok h.perm h.gen
  obtain ⟨M', hS⟩ := hm.eng
  obtain ⟨c0, c1, c2⟩ := cells (by omega) (by omega) hm
  have hkl := hm.kl
  simp only [orc, Except.ok.injEq, Prod.mk.injEq] at hkl
  have c10 := cells_l0 hS (sysOf_T12 h.orc).1 (h.orc.klein _ _ hm.kl) (by omega : 1 ≤ 3)
  rw [← hkl.1, ← hkl.2] at c10
  have hxb : mod.xbar = -1 := hm.xbar
  set q0 : Q → Rat := q0Of (0 : Bool ⊕ Fin 1 → Rat) (fun _ => -2) with hq0
  have hl0 : lam *ᵥ q0 = fun j => match j with | .inl _ => -2 | .inr _ => 0 := by
    ext i
    rcases i with i | i <;> simp [mulVec, dotProduct, Fintype.sum_sum_type, lam, hq0, q0Of]
  have hl1 : lam *ᵥ (lam *ᵥ q0) = 0 := by
    rw [hl0]
    ext i
    rcases i with i | i <;> simp [mulVec, dotProduct, Fintype.sum_sum_type, lam]
  have hq : q0 = fun j => match j with | .inl _ => 0 | .inr _ => -2 := by
    ext i
    rcases i with i | i <;> simp [hq0, q0Of]
  rw [hl0] at hl1
  have v10 : pathValue (ff lay) c q0 1 0 1 = -2 := by
    simp only [pathValue, fp1_eq, fq0_eq, fq1_eq, zero_dotProduct, pPath, qPath, locCell, lLoc, kLoc, Nat.sub_self, Nat.add_zero, Nat.sub_zero,
      Nat.min_self, c0, c10, hl0, add_zero, Nat.zero_min, Nat.add_sub_cancel]
    simp [dotProduct, Fintype.sum_sum_type, mulVec, omg]
  have v01 : pathValue (ff lay) c q0 0 1 0 = 2 := by
    simp only [pathValue, fp1_eq, fq0_eq, fq1_eq, zero_dotProduct, pPath, qPath, locCell, lLoc, kLoc, Nat.sub_self, Nat.add_zero,
      Nat.sub_zero, Nat.min_self, c1, add_zero]
    simp [dotProduct, Fintype.sum_sum_type, mulVec, c01, next, hq, omg]
  have v110 : pathValue (ff lay) c q0 1 1 0 = 1 := by
    simp only [pathValue, fp1_eq, fq0_eq, fq1_eq, zero_dotProduct, pPath, qPath, locCell, lLoc, kLoc, Nat.sub_self, Nat.add_zero,
      Nat.sub_zero, Nat.min_self, c2, add_zero, Nat.le_add_right, Nat.min_eq_left]
    simp [dotProduct, Fintype.sum_sum_type, mulVec, c11, c01, next, hq, omg]
  have v111 : pathValue (ff lay) c q0 1 1 1 = -2 := by
    have e2 : c11.qmat = lam := rfl
    have e3 : c11.qterm = 0 := rfl
    simp only [pathValue, fp1_eq, fq0_eq, fq1_eq, zero_dotProduct, pPath, qPath, locCell, lLoc, kLoc, Nat.sub_self, Nat.add_zero,
      Nat.sub_zero, Nat.min_self, c1, c2, add_zero, Nat.le_add_right, Nat.min_eq_left, e2, e3, hl0, Nat.add_sub_cancel]
    simp [dotProduct, Fintype.sum_sum_type, mulVec, c01, next, omg]
  have v112 : pathValue (ff lay) c q0 1 1 2 = 0 := by
    have e2 : c11.qmat = lam := rfl
    have e3 : c11.qterm = 0 := rfl
    have e4 : c01.qmat = lam := rfl
    have e5 : c01.qterm = 0 := rfl
    have e6 : lLoc 1 2 = 0 := rfl
    have e7 : kLoc 1 1 2 = 0 := rfl
    have e8 : lLoc 1 1 = 0 := rfl
    have e9 : kLoc 1 1 1 = 1 := rfl
    have e10 : lLoc 1 0 = 1 := rfl
    have e11 : kLoc 1 1 0 = 1 := rfl
    simp only [pathValue, fp1_eq, fq0_eq, fq1_eq, zero_dotProduct, pPath, qPath, locCell, e6, e7, e8, e9, e10, e11, c0, c1, c2, add_zero, e2, e3, e4, e5, hl0, hl1]
    simp
  have hcons : Consistent (fun i l k => pathValue (ff lay) c q0 l k (slotPeriod l k i)) mod.xbar 1 1 := by
    refine ⟨le_rfl, fun _ => ?_, by omega, ?_, ?_, by omega⟩
    · simp only [slotPeriod, v110, hxb]; norm_num
    · simp only [slotPeriod, Nat.reduceAdd, v112, hxb]; norm_num
    · simp only [slotPeriod, v111, hxb]; norm_num
  have hnot : ¬ Consistent (fun i l k => pathValue (ff lay) c q0 l k (slotPeriod l k i)) mod.xbar 0 1 := by
    intro hc
    have := hc.first
    simp only [slotPeriod, hxb, v01] at this
    norm_num at this
  rcases findLk_spec (xbar := mod.xbar) (checkCnst_reads hS q0) (by omega) (by omega) (by omega) with h1 | ⟨_, l, k, h1, h2⟩ | ⟨_, h1, _⟩
  · have := h1.1 1 (by omega)
    simp only [slotPeriod, v10, hxb] at this
    norm_num at this
  · obtain ⟨g1, g2, g3, g4⟩ := h1
    have hb := g3.binds
    have hlk : l = 1 ∧ k = 1 := by
      have := g4 1 1 (by omega) (by omega) hcons
      unfold LexLt at this
      simp only at this
      have hl0 : l ≠ 0 := by
        rintro rfl
        have : k = 1 := by omega
        subst this
        exact hnot g3
      omega
    obtain ⟨rfl, rfl⟩ := hlk
    refine ⟨_, tFunc_find hm 0 (fun _ => -2) h2 (by omega) (by omega), rfl, rfl, rfl, ?_⟩
    funext i
    rcases i with i | i
    · simp only [xPath_zero, c2, Sum.elim_inl, ← hq0]
      rcases i with _ | _ <;> simp [c11, c01, next, mulVec, dotProduct, Fintype.sum_sum_type, hq, omg]
    · have e2 : c11.qmat = lam := rfl
      have e3 : c11.qterm = 0 := rfl
      simp only [xPath_zero, c2, Sum.elim_inr, ← hq0, e2, e3, hl0, add_zero]
  · exact absurd hcons (h1 1 1 (by omega) (by omega))

/-- The constraint's value today in the path of `(1,1)` is last period's `w` plus a constant. -/
theorem row11 {sched : Nat → List Nat} {mod : Model (Fin 1) (Fin 1) Bool (Fin 1) Rat} (h : Succeeded lay orc 3 1 sched mod) :
    ∃ row, mod.tables.b 1 1 0 = some row ∧ ∀ v : Q → Rat, row.1 ⬝ᵥ v = v (.inl 0) := by
  obtain ⟨c, hm⟩ := genSys_ok h.perm h.gen
  obtain ⟨M', hS⟩ := hm.eng
  obtain ⟨c0, c1, c2⟩ := cells (by omega) (by omega) hm
  refine ⟨rowAt (ff lay) c 1 1 0, ?_, ?_⟩
  · rw [hS.rows]
    rfl
  · have hv : ∀ v : Q → Rat, (rowAt (ff lay) c 1 1 0).1 ⬝ᵥ v + (rowAt (ff lay) c 1 1 0).2 = v (.inl 0) + 1 := by
      intro v
      rw [rowAt_value]
      simp only [fp1_eq, fq0_eq, fq1_eq, zero_dotProduct, pPath, qPath, locCell, lLoc, kLoc, Nat.sub_self, Nat.add_zero,
        Nat.sub_zero, Nat.min_self, c2, add_zero, Nat.le_add_right, Nat.min_eq_left]
      simp [dotProduct, Fintype.sum_sum_type, mulVec, c11, c01, next, omg]
    intro v
    have h1 := hv v
    have h0 := hv 0
    simp only [dotProduct_zero, Pi.zero_apply] at h0
    linarith

theorem pq11 {sched : Nat → List Nat} {mod : Model (Fin 1) (Fin 1) Bool (Fin 1) Rat} (h : Succeeded lay orc 3 1 sched mod) :
    mod.tables.pq 1 1 = some c11 := by
  obtain ⟨c, hm⟩ := genSys_ok h.perm h.gen
  obtain ⟨M', hS⟩ := hm.eng
  obtain ⟨c0, c1, c2⟩ := cells (by omega) (by omega) hm
  rw [hS.complete.filled 1 1 (by omega) (by omega), c2]

end Pydsge.Ex3
