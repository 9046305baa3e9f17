import Verif.Lemmas.Paths
import Verif.Lemmas.Search
import Verif.Spec.Spell

/-! # `t_func_jit` on preprocessed tables -/

set_option autoImplicit false
set_option linter.unusedSectionVars false

namespace Pydsge.Engine

open Matrix Pydsge.Spec

variable {q p K : Type} [Fintype q] [Fintype p] [DecidableEq q] [DecidableEq p] [Field K] [LinearOrder K]
variable {M M' : Sys q p K} {f : Fun3 q p K} {omg : Matrix p q K} {lam : Matrix q q K} {lMax kMax : Nat}
  {t : Tables q p K} {c : Nat → Nat → Cell q p K}

theorem elapsed_eq_loc (l k s : Nat) : elapsed l k s = (lLoc l s, kLoc l k s) := by
  unfold elapsed lLoc kLoc
  split_ifs <;> refine Prod.ext ?_ ?_ <;> dsimp only <;> omega

/-- A path that is generated step by step by imposing, in period `s`, what is left of the spell `(l,k)`. -/
def SpellPath (t : Tables q p K) (xbar : K) (l k : Nat) (Q : Nat → q → K) (P : Nat → p → K) : Prop :=
  ∀ s, ∃ r, tFuncJit t xbar (Q s) (some (((elapsed l k s).1 : Int), ((elapsed l k s).2 : Int))) = .ok r ∧
    P s = r.p ∧ Q (s + 1) = r.q

theorem pyIdx_nat {n i : Nat} (h : i < n) : pyIdx n (i : Int) = .ok i := by
  unfold pyIdx
  rw [if_pos (by omega)]
  simp

theorem tFuncJit_set (hS : Solved M M' f omg lam lMax kMax t c) (xbar : K) (s : q → K) {l k : Nat} (hl : l ≤ lMax)
    (hk : k ≤ kMax) : tFuncJit t xbar s (some ((l : Int), (k : Int))) =
      .ok ⟨(c l k).pmat *ᵥ s + (c l k).pterm, (c l k).qmat *ᵥ s + (c l k).qterm, l, k, 0⟩ := by
  unfold tFuncJit
  have hk1 : ((k : Int) = -1) = False := by simp
  simp only [hk1, if_false]
  rw [hS.shapeL, hS.shapeK, pyIdx_nat (by omega : l < lMax + 1), pyIdx_nat (by omega : k < kMax + 1)]
  simp only
  rw [hS.complete.filled l k (by omega) (by omega)]

theorem elapsed_le {l k lMax kMax : Nat} (hl : l ≤ lMax) (hk : k ≤ kMax) (s : Nat) :
    (elapsed l k s).1 ≤ lMax ∧ (elapsed l k s).2 ≤ kMax := by
  unfold elapsed; split_ifs <;> simp only <;> omega

/-- The step-by-step path under `(l,k)` is the one the tables encode. -/
theorem spellPath_iff (hS : Solved M M' f omg lam lMax kMax t c) (xbar : K) {l k : Nat} (hl : l ≤ lMax) (hk : k ≤ kMax)
    (Q : Nat → q → K) (P : Nat → p → K) :
    SpellPath t xbar l k Q P ↔ (∀ s, Q s = qPath c l k (Q 0) s) ∧ (∀ s, P s = pPath c l k (Q 0) s) := by
  have hstep : ∀ s, tFuncJit t xbar (Q s) (some (((elapsed l k s).1 : Int), ((elapsed l k s).2 : Int))) =
      .ok ⟨(locCell c l k s).pmat *ᵥ Q s + (locCell c l k s).pterm, (locCell c l k s).qmat *ᵥ Q s + (locCell c l k s).qterm,
        (elapsed l k s).1, (elapsed l k s).2, 0⟩ := by
    intro s
    rw [tFuncJit_set hS xbar (Q s) (elapsed_le hl hk s).1 (elapsed_le hl hk s).2, elapsed_eq_loc]
    rfl
  constructor
  · intro h
    have hQ : ∀ s, Q s = qPath c l k (Q 0) s := by
      intro s
      induction s with
      | zero => rfl
      | succ s ih =>
        obtain ⟨r, h1, h2, h3⟩ := h s
        rw [hstep s] at h1
        cases h1
        rw [h3]
        simp only [qPath, ← ih]
    refine ⟨hQ, fun s => ?_⟩
    obtain ⟨r, h1, h2, h3⟩ := h s
    rw [hstep s] at h1
    cases h1
    rw [h2]
    simp only [pPath, ← hQ s]
  · rintro ⟨hQ, hP⟩ s
    refine ⟨_, hstep s, ?_, ?_⟩
    · rw [hP s]; simp only [pPath, ← hQ s]
    · rw [hQ (s+1)]; simp only [qPath, ← hQ s]

theorem spellPath_exists (hS : Solved M M' f omg lam lMax kMax t c) (xbar : K) {l k : Nat} (hl : l ≤ lMax) (hk : k ≤ kMax)
    (q0 : q → K) : SpellPath t xbar l k (qPath c l k q0) (pPath c l k q0) := by
  rw [spellPath_iff hS xbar hl hk]
  exact ⟨fun s => rfl, fun s => rfl⟩

/-- value of the constraint functional in period `s` of the path under `(l,k)` -/
def pathValue (f : Fun3 q p K) (c : Nat → Nat → Cell q p K) (q0 : q → K) (l k s : Nat) : K :=
  f.fp1 ⬝ᵥ pPath c l k q0 s + f.fq1 ⬝ᵥ qPath c l k q0 (s+1) + f.fq0 ⬝ᵥ qPath c l k q0 s

/-- the period that belongs to each of the five rows -/
def slotPeriod (l k : Nat) (i : Fin 5) : Nat :=
  match i with
  | 0 => 0
  | 1 => l - 1
  | 2 => l
  | 3 => l + k - 1
  | 4 => l + k

theorem checkCnst_reads (hS : Solved M M' f omg lam lMax kMax t c) (q0 : q → K) :
    Reads (checkCnst t q0) (fun i l k => pathValue f c q0 l k (slotPeriod l k i)) (lMax + 1) (kMax + 1) := by
  intro i l k hl hk h1 h3
  unfold checkCnst
  rw [hS.shapeL, hS.shapeK, if_pos ⟨hl, hk⟩, hS.rows]
  simp only [hl, hk, and_self, if_true, bRows]
  have hs : slotAt l k i = some (slotPeriod l k i) := by
    fin_cases i
    · rfl
    · have := h1 rfl
      simp only [slotAt, slotPeriod]; rw [if_neg (by omega)]
    · rfl
    · have := h3 rfl
      simp only [slotAt, slotPeriod]; rw [if_neg (by omega)]
    · rfl
  rw [hs]
  simp only [rowAt_value]
  rfl

end Pydsge.Engine
