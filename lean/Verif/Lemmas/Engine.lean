import Verif.Model.Engine
import Verif.Lemmas.Fold
import Mathlib.LinearAlgebra.Matrix.NonsingularInverse

/-! # Lemmas on preprocessing -/

set_option autoImplicit false
set_option linter.unusedSectionVars false

namespace Pydsge.Engine

open Matrix

variable {q p K : Type} [Fintype q] [Fintype p] [DecidableEq q] [DecidableEq p]

theorem npInv_ok {n : Type} [Fintype n] [DecidableEq n] [Field K] [DecidableEq K] {A B : Matrix n n K}
    (h : npInv A = .ok B) : A * B = 1 ∧ B * A = 1 := by
  unfold npInv at h
  split_ifs at h with hd
  cases h
  constructor
  · rw [Matrix.mul_smul, mul_adjugate, smul_smul, inv_mul_cancel₀ hd, one_smul]
  · rw [Matrix.smul_mul, adjugate_mul, smul_smul, inv_mul_cancel₀ hd, one_smul]

theorem npInv_error {n : Type} [Fintype n] [DecidableEq n] [Field K] [DecidableEq K] {A : Matrix n n K} {e : PyErr}
    (h : npInv A = .error e) : e = .linAlg := by
  unfold npInv at h
  split_ifs at h with hd
  cases h; rfl

theorem npInv_eq_of_mul {n : Type} [Fintype n] [DecidableEq n] [Field K] [DecidableEq K] {A B : Matrix n n K}
    (h : A * B = 1) : npInv A = .ok B := by
  have hd : A.det ≠ 0 := by
    intro h0
    have := congrArg det h
    rw [det_mul, h0, zero_mul, det_one] at this
    exact zero_ne_one this
  unfold npInv
  rw [if_neg hd]
  congr 1
  have h2 : (A.det⁻¹ • A.adjugate) * A = 1 := by
    rw [Matrix.smul_mul, adjugate_mul, smul_smul, inv_mul_cancel₀ hd, one_smul]
  calc A.det⁻¹ • A.adjugate = (A.det⁻¹ • A.adjugate) * (A * B) := by rw [h, mul_one]
    _ = B := by rw [← mul_assoc, h2, one_mul]

section Rec
variable [Field K] [DecidableEq K]

/-- One step of the recursion: the cell that belongs to one more period in regime `l`. -/
def stepCell (M : Sys q p K) (l : Nat) (c : Cell q p K) : Except PyErr (Cell q p K) :=
  match getLam c.pmat c.pterm M l with
  | .error e => .error e
  | .ok (lam, xi) =>
    let (omg, psi) := getOmg c.pmat c.pterm lam xi M l
    .ok ⟨omg, psi, lam, xi⟩

/-- The cell from which `(l,k)` is computed. -/
def lastIdx (l k : Nat) : Nat × Nat := (l - 1, if l ≠ 0 then k else k - 1)

theorem lastIdx_zero (k : Nat) : lastIdx 0 k = (0, k - 1) := by simp [lastIdx]

theorem lastIdx_pos {l : Nat} (h : l ≠ 0) (k : Nat) : lastIdx l k = (l - 1, k) := by simp [lastIdx, h]

/-- `mem` holds a complete solution of the recursion on an `L × Kk` table and nothing else. -/
structure Complete (M : Sys q p K) (omg : Matrix p q K) (lam : Matrix q q K) (L Kk : Nat) (mem : Mem q p K)
    (c : Nat → Nat → Cell q p K) : Prop where
  start : c 0 0 = ⟨omg, 0, lam, 0⟩
  step : ∀ l k, l < L → k < Kk → (k ≠ 0 ∨ l ≠ 0) → stepCell M l (c (lastIdx l k).1 (lastIdx l k).2) = .ok (c l k)
  filled : ∀ l k, l < L → k < Kk → mem l k = some (c l k)
  out : ∀ l k, ¬ (l < L ∧ k < Kk) → mem l k = none

theorem getLam_error {omg : Matrix p q K} {psi : p → K} {M : Sys q p K} {l : Nat} {e : PyErr}
    (h : getLam omg psi M l = .error e) : e = .linAlg := by
  unfold getLam at h
  dsimp only at h
  split at h
  · rename_i e' he
    cases h
    exact npInv_error he
  · cases h

theorem stepCell_error {M : Sys q p K} {l : Nat} {c : Cell q p K} {e : PyErr}
    (h : stepCell M l c = .error e) : e = .linAlg := by
  unfold stepCell at h
  split at h
  · rename_i e' he
    cases h
    exact getLam_error he
  · cases h

theorem lkStep_eq (M : Sys q p K) (l k : Nat) (mem : Mem q p K) (h : k ≠ 0 ∨ l ≠ 0) {c : Cell q p K}
    (hc : mem (lastIdx l k).1 (lastIdx l k).2 = some c) :
    lkStep M l mem k = match stepCell M l c with
      | .error e => .error e
      | .ok c' => .ok (mem.set l k c') := by
  unfold lkStep stepCell
  rw [if_pos h]
  simp only [lastIdx] at hc
  dsimp only
  rw [hc]
  dsimp only
  cases getLam c.pmat c.pterm M l with
  | error e => rfl
  | ok r => rfl

/-- cells written after `i` full rows and `j` cells of row `i` -/
def Done (Kk i j l k : Nat) : Prop := (l = 0 ∧ k = 0) ∨ (k < Kk ∧ (l < i ∨ (l = i ∧ k < j)))

/-- The double loop fills the table completely, or fails with `LinAlgError`; it never reads an unwritten cell. -/
theorem lkLoop_spec (M : Sys q p K) (omg : Matrix p q K) (lam : Matrix q q K) (L Kk : Nat) (hL : 0 < L) (hK : 0 < Kk) :
    (∃ mem c, lkLoop M omg lam L Kk = .ok mem ∧ Complete M omg lam L Kk mem c) ∨
    lkLoop M omg lam L Kk = .error .linAlg := by
  classical
  let Inv : Nat → Nat → Mem q p K → Prop := fun i j mem => ∃ c : Nat → Nat → Cell q p K,
    c 0 0 = ⟨omg, 0, lam, 0⟩ ∧
    (∀ l k, Done Kk i j l k → (k ≠ 0 ∨ l ≠ 0) → stepCell M l (c (lastIdx l k).1 (lastIdx l k).2) = .ok (c l k)) ∧
    (∀ l k, Done Kk i j l k → mem l k = some (c l k)) ∧ (∀ l k, ¬ Done Kk i j l k → mem l k = none)
  have inner : ∀ i mem, i < L → Inv i 0 mem →
      (∃ s', (List.range Kk).foldlM (lkStep M i) mem = .ok s' ∧ Inv i Kk s') ∨
      (∃ e, (List.range Kk).foldlM (lkStep M i) mem = .error e ∧ e = PyErr.linAlg) := by
    intro i mem hi h0
    refine foldlM_range_inv (fun j m => Inv i j m) (fun e => e = PyErr.linAlg) Kk mem h0 ?_
    rintro k m hk ⟨c, c0, c1, c2, c3⟩
    by_cases hz : k ≠ 0 ∨ i ≠ 0
    · have hlast : Done Kk i k (lastIdx i k).1 (lastIdx i k).2 := by
        unfold Done
        by_cases hi0 : i = 0
        · subst hi0
          simp only [lastIdx_zero]
          rcases hz with h | h
          · right
            refine ⟨by omega, Or.inr ⟨trivial, ?_⟩⟩
            omega
          · exact absurd rfl h
        · simp only [lastIdx_pos hi0]
          right; constructor; omega; left; omega
      rw [lkStep_eq M i k m hz (c2 _ _ hlast)]
      cases hsc : stepCell M i (c (lastIdx i k).1 (lastIdx i k).2) with
      | error e => right; exact ⟨e, rfl, stepCell_error hsc⟩
      | ok c' =>
        left
        refine ⟨_, rfl, fun l k' => if l = i ∧ k' = k then c' else c l k', ?_, ?_, ?_, ?_⟩
        · have : ¬ (0 = i ∧ 0 = k) := by omega
          simp only [this, if_false, c0]
        · intro l k' hd hne
          have hl : ¬ ((lastIdx l k').1 = i ∧ (lastIdx l k').2 = k) := by
            unfold Done at *
            by_cases hl0 : l = 0
            · subst hl0
              simp only [lastIdx_zero]
              omega
            · simp only [lastIdx_pos hl0]
              omega
          simp only [hl, if_false]
          by_cases hx : l = i ∧ k' = k
          · obtain ⟨rfl, rfl⟩ := hx
            simp only [and_self, if_true]
            exact hsc
          · simp only [hx, if_false]
            refine c1 l k' ?_ hne
            unfold Done at *
            omega
        · intro l k' hd
          unfold Mem.set
          by_cases hx : l = i ∧ k' = k
          · simp only [hx, and_self, if_true]
          · simp only [hx, if_false]
            refine c2 l k' ?_
            unfold Done at *
            omega
        · intro l k' hd
          unfold Mem.set
          have hx : ¬ (l = i ∧ k' = k) := by unfold Done at hd; omega
          simp only [hx, if_false]
          refine c3 l k' ?_
          unfold Done at *
          omega
    · left
      have hz' : k = 0 ∧ i = 0 := by omega
      obtain ⟨rfl, rfl⟩ := hz'
      have he : ∀ l k, Done Kk 0 (0+1) l k ↔ Done Kk 0 0 l k := by unfold Done; omega
      refine ⟨m, by simp [lkStep], c, c0, ?_, ?_, ?_⟩
      · intro l k h; exact c1 l k ((he l k).1 h)
      · intro l k h; exact c2 l k ((he l k).1 h)
      · intro l k h; exact c3 l k (fun h' => h ((he l k).2 h'))
  have outer := foldlM_range_inv (f := fun mem l => (List.range Kk).foldlM (lkStep M l) mem)
    (fun i m => Inv i 0 m) (fun e => e = PyErr.linAlg) L
    (Mem.set (fun _ _ => none) 0 0 ⟨omg, 0, lam, 0⟩) ?_ ?_
  · rcases outer with ⟨m, h1, c, c0, c1, c2, c3⟩ | ⟨e, h1, rfl⟩
    · left
      have he : ∀ l k, Done Kk L 0 l k ↔ (l < L ∧ k < Kk) := by unfold Done; omega
      refine ⟨m, c, h1, c0, ?_, ?_, ?_⟩
      · intro l k hl hk; exact c1 l k ((he l k).2 ⟨hl, hk⟩)
      · intro l k hl hk; exact c2 l k ((he l k).2 ⟨hl, hk⟩)
      · intro l k h; exact c3 l k (fun h' => h ((he l k).1 h'))
    · right; exact h1
  · refine ⟨fun _ _ => ⟨omg, 0, lam, 0⟩, rfl, ?_, ?_, ?_⟩
    · intro l k h hn; unfold Done at h; omega
    · intro l k h
      have : l = 0 ∧ k = 0 := by unfold Done at h; omega
      simp [Mem.set, this]
    · intro l k h
      have : ¬ (l = 0 ∧ k = 0) := by unfold Done at h; omega
      simp [Mem.set, this]
  · intro i m hi hinv
    rcases inner i m hi hinv with ⟨s', h1, c, c0, c1, c2, c3⟩ | h
    · left
      have he : ∀ l k, Done Kk (i+1) 0 l k ↔ Done Kk i Kk l k := by unfold Done; omega
      refine ⟨s', h1, c, c0, ?_, ?_, ?_⟩
      · intro l k h; exact c1 l k ((he l k).1 h)
      · intro l k h; exact c2 l k ((he l k).1 h)
      · intro l k h; exact c3 l k (fun h' => h ((he l k).2 h'))
    · right; exact h

end Rec

end Pydsge.Engine
