import Verif.Lemmas.Tables

/-! # The recursion of preprocessing solves the system -/

set_option autoImplicit false
set_option linter.unusedSectionVars false

namespace Pydsge.Engine

open Matrix

variable {q p K : Type} [Fintype q] [Fintype p] [DecidableEq q] [DecidableEq p] [Field K] [DecidableEq K]

/-- Complete description of a successful preprocessing. -/
structure Solved (M M' : Sys q p K) (f : Fun3 q p K) (omg : Matrix p q K) (lam : Matrix q q K) (lMax kMax : Nat)
    (t : Tables q p K) (c : Nat → Nat → Cell q p K) : Prop where
  norm : normalise M = .ok M'
  shapeL : t.L = lMax + 1
  shapeK : t.Kk = kMax + 1
  complete : Complete M' omg lam (lMax + 1) (kMax + 1) t.pq c
  rows : t.b = fun l k => if l < lMax + 1 ∧ k < kMax + 1 then bRows f c l k else fun _ => none

theorem normalise_error {M : Sys q p K} {e : PyErr} (h : normalise M = .error e) : e = .linAlg := by
  unfold normalise at h
  split at h
  · rename_i e' he; cases h; exact npInv_error he
  · split at h
    · rename_i e' he; cases h; exact npInv_error he
    · cases h

/-- Preprocessing either fails with `LinAlgError` or yields complete tables, for every order of the parallel loop. -/
theorem preprocess_spec (M : Sys q p K) (f : Fun3 q p K) (omg : Matrix p q K) (lam : Matrix q q K) (lMax kMax : Nat)
    (sched : Nat → List Nat) (hs : ∀ l < lMax + 1, (sched l).Perm (List.range (kMax + 1))) :
    (∃ M' t c, preprocess M f omg lam lMax kMax sched = .ok t ∧ Solved M M' f omg lam lMax kMax t c) ∨
    preprocess M f omg lam lMax kMax sched = .error .linAlg := by
  unfold preprocess
  dsimp only
  cases hn : normalise M with
  | error e => right; dsimp only; rw [normalise_error hn]
  | ok M' =>
    dsimp only
    rcases lkLoop_spec M' omg lam (lMax + 1) (kMax + 1) (by omega) (by omega) with ⟨mem, c, h1, h2⟩ | h1
    · left
      rw [h1]
      dsimp only
      rw [bLoop_spec f mem c (lMax + 1) (kMax + 1) h2.filled sched hs]
      exact ⟨M', _, c, rfl, hn, rfl, rfl, h2, rfl⟩
    · right
      rw [h1]

theorem preprocess_ok {M : Sys q p K} {f : Fun3 q p K} {omg : Matrix p q K} {lam : Matrix q q K} {lMax kMax : Nat}
    {sched : Nat → List Nat} (hs : ∀ l < lMax + 1, (sched l).Perm (List.range (kMax + 1))) {t : Tables q p K}
    (h : preprocess M f omg lam lMax kMax sched = .ok t) : ∃ M' c, Solved M M' f omg lam lMax kMax t c := by
  rcases preprocess_spec M f omg lam lMax kMax sched hs with ⟨M', t', c, h1, h2⟩ | h1
  · rw [h] at h1; cases h1; exact ⟨M', c, h2⟩
  · rw [h] at h1; cases h1

section Algebra

theorem sumElim_eq_iff {α β γ : Type} {a a' : α → γ} {b b' : β → γ} :
    Sum.elim a b = Sum.elim a' b' ↔ a = a' ∧ b = b' := by
  constructor
  · intro h
    exact ⟨funext fun i => congrFun h (.inl i), funext fun i => congrFun h (.inr i)⟩
  · rintro ⟨rfl, rfl⟩; rfl

theorem mulVec_elim (A : Matrix (q ⊕ p) (q ⊕ p) K) (x : q → K) (y : p → K) :
    A *ᵥ Sum.elim x y = Sum.elim (A.toBlocks₁₁ *ᵥ x + A.toBlocks₁₂ *ᵥ y) (A.toBlocks₂₁ *ᵥ x + A.toBlocks₂₂ *ᵥ y) := by
  conv_lhs => rw [← fromBlocks_toBlocks A]
  rw [fromBlocks_mulVec]
  simp [Function.comp_def]

/-- The system matrices as seen by one step: regime U for `l ≠ 0`, regime R for `l = 0`. -/
def lhsMat (M : Sys q p K) (l : Nat) : Matrix (q ⊕ p) (q ⊕ p) K := if l ≠ 0 then M.S else M.V
def rhsMat (M : Sys q p K) (l : Nat) : Matrix (q ⊕ p) (q ⊕ p) K := if l ≠ 0 then M.T else M.W
def rhsVec (M : Sys q p K) (l : Nat) : q ⊕ p → K := if l ≠ 0 then 0 else M.h

theorem stepCell_solves {M : Sys q p K} {l : Nat} {c c' : Cell q p K} (h : stepCell M l c = .ok c')
    (h12 : (rhsMat M l).toBlocks₁₂ = 0) (h22 : (rhsMat M l).toBlocks₂₂ = 1) (q0 : q → K) :
    lhsMat M l *ᵥ Sum.elim (c'.qmat *ᵥ q0 + c'.qterm) (c.pmat *ᵥ (c'.qmat *ᵥ q0 + c'.qterm) + c.pterm) =
      rhsMat M l *ᵥ Sum.elim q0 (c'.pmat *ᵥ q0 + c'.pterm) + rhsVec M l := by
  unfold stepCell getLam at h
  dsimp only at h
  have hA : (if l ≠ 0 then M.S else M.V) = lhsMat M l := rfl
  have hB : (if l ≠ 0 then M.T else M.W) = rhsMat M l := rfl
  have hc1 : (if l ≠ 0 then (0 : q → K) else fun i => M.h (.inl i)) = fun i => rhsVec M l (.inl i) := by
    unfold rhsVec; split_ifs <;> rfl
  have hc2 : (if l ≠ 0 then (0 : p → K) else fun i => M.h (.inr i)) = fun i => rhsVec M l (.inr i) := by
    unfold rhsVec; split_ifs <;> rfl
  rw [hA, hB, hc1] at h
  cases hinv : npInv ((lhsMat M l).toBlocks₁₁ + (lhsMat M l).toBlocks₁₂ * c.pmat) with
  | error e => rw [hinv] at h; cases h
  | ok inv =>
    rw [hinv] at h
    simp only [getOmg, hA, hB, hc2, Except.ok.injEq] at h
    have hi := (npInv_ok hinv).1
    rw [← h]
    dsimp only
    generalize lhsMat M l = A at *
    generalize rhsMat M l = B at *
    generalize rhsVec M l = v at *
    clear h hA hB hc1 hc2
    obtain ⟨c1, c2, rfl⟩ : ∃ c1 c2, v = Sum.elim c1 c2 :=
      ⟨fun i => v (.inl i), fun i => v (.inr i), by funext i; cases i <;> rfl⟩
    simp only [Sum.elim_inl, Sum.elim_inr]
    rw [mulVec_elim, mulVec_elim, h12, h22]
    rw [← Sum.elim_add_add, sumElim_eq_iff]
    constructor
    · have e1 : (inv * B.toBlocks₁₁) *ᵥ q0 + inv *ᵥ (c1 - A.toBlocks₁₂ *ᵥ c.pterm) =
          inv *ᵥ (B.toBlocks₁₁ *ᵥ q0 + (c1 - A.toBlocks₁₂ *ᵥ c.pterm)) := by
        rw [mulVec_add, mulVec_mulVec]
      have e2 : (A.toBlocks₁₁ + A.toBlocks₁₂ * c.pmat) *ᵥ
          (inv *ᵥ (B.toBlocks₁₁ *ᵥ q0 + (c1 - A.toBlocks₁₂ *ᵥ c.pterm))) =
          B.toBlocks₁₁ *ᵥ q0 + (c1 - A.toBlocks₁₂ *ᵥ c.pterm) := by
        rw [mulVec_mulVec, hi, one_mulVec]
      rw [zero_mulVec, add_zero, e1, mulVec_add A.toBlocks₁₂]
      rw [add_mulVec, ← mulVec_mulVec] at e2
      rw [← add_assoc, e2]
      abel
    · rw [one_mulVec]
      simp only [mulVec_add, add_mulVec, sub_mulVec, mulVec_mulVec, Matrix.add_mul, Matrix.mul_assoc]
      abel

theorem lowerRows_blocks (X : Matrix p p K) (A : Matrix (q ⊕ p) (q ⊕ p) K) :
    (lowerRows X A).toBlocks₁₁ = A.toBlocks₁₁ ∧ (lowerRows X A).toBlocks₁₂ = A.toBlocks₁₂ ∧
    (lowerRows X A).toBlocks₂₁ = X * A.toBlocks₂₁ ∧ (lowerRows X A).toBlocks₂₂ = X * A.toBlocks₂₂ := by
  simp [lowerRows]

theorem lowerRows_mulVec (X : Matrix p p K) (A : Matrix (q ⊕ p) (q ⊕ p) K) (x : q ⊕ p → K) :
    lowerRows X A *ᵥ x = lowerVec X (A *ᵥ x) := by
  have hx : x = Sum.elim (fun i => x (.inl i)) (fun i => x (.inr i)) := by funext i; cases i <;> rfl
  rw [hx, mulVec_elim, mulVec_elim]
  obtain ⟨h1, h2, h3, h4⟩ := lowerRows_blocks X A
  rw [h1, h2, h3, h4]
  funext i
  cases i
  · rfl
  · simp [lowerVec, ← mulVec_mulVec, ← mulVec_add]
    rfl

theorem lowerVec_inj {X Y : Matrix p p K} (h : Y * X = 1) {a b : q ⊕ p → K} (hab : lowerVec X a = lowerVec X b) : a = b := by
  unfold lowerVec at hab
  rw [sumElim_eq_iff] at hab
  obtain ⟨h1, h2⟩ := hab
  have h3 := congrArg (fun v => Y *ᵥ v) h2
  simp only [mulVec_mulVec, h, one_mulVec] at h3
  funext i
  cases i with
  | inl i => exact congrFun h1 i
  | inr i => exact congrFun h3 i

theorem lowerVec_add (X : Matrix p p K) (a b : q ⊕ p → K) : lowerVec X (a + b) = lowerVec X a + lowerVec X b := by
  unfold lowerVec
  rw [← Sum.elim_add_add, sumElim_eq_iff]
  refine ⟨rfl, ?_⟩
  rw [← mulVec_add]
  rfl

/-- The normalisation is an invertible row operation and makes the lower right blocks identities. -/
theorem normalise_ok {M M' : Sys q p K} (h : normalise M = .ok M') :
    (∀ x y, M'.S *ᵥ x = M'.T *ᵥ y ↔ M.S *ᵥ x = M.T *ᵥ y) ∧
    (∀ x y, M'.V *ᵥ x = M'.W *ᵥ y + M'.h ↔ M.V *ᵥ x = M.W *ᵥ y + M.h) ∧
    M'.T.toBlocks₂₂ = 1 ∧ M'.W.toBlocks₂₂ = 1 ∧ M'.T.toBlocks₁₂ = M.T.toBlocks₁₂ ∧ M'.W.toBlocks₁₂ = M.W.toBlocks₁₂ := by
  unfold normalise at h
  cases hT : npInv M.T.toBlocks₂₂ with
  | error e => rw [hT] at h; cases h
  | ok Ti =>
    rw [hT] at h
    dsimp only at h
    cases hW : npInv M.W.toBlocks₂₂ with
    | error e => rw [hW] at h; cases h
    | ok Wi =>
      rw [hW] at h
      simp only [Except.ok.injEq] at h
      subst h
      have t := npInv_ok hT
      have w := npInv_ok hW
      refine ⟨?_, ?_, ?_, ?_, ?_, ?_⟩
      · intro x y
        simp only [lowerRows_mulVec]
        exact ⟨fun h => lowerVec_inj t.1 h, fun h => by rw [h]⟩
      · intro x y
        simp only [lowerRows_mulVec, ← lowerVec_add]
        exact ⟨fun h => lowerVec_inj w.1 h, fun h => by rw [h]⟩
      · simp only [(lowerRows_blocks _ _).2.2.2, t.2]
      · simp only [(lowerRows_blocks _ _).2.2.2, w.2]
      · simp only [(lowerRows_blocks _ _).2.1]
      · simp only [(lowerRows_blocks _ _).2.1]

/-- The contract of the linear solver: `(omg, lam)` solves the slack regime forever. -/
def KleinOK (M : Sys q p K) (omg : Matrix p q K) (lam : Matrix q q K) : Prop :=
  ∀ q0 : q → K, M.S *ᵥ Sum.elim (lam *ᵥ q0) (omg *ᵥ (lam *ᵥ q0)) = M.T *ᵥ Sum.elim q0 (omg *ᵥ q0)

variable {M M' : Sys q p K} {f : Fun3 q p K} {omg : Matrix p q K} {lam : Matrix q q K} {lMax kMax : Nat}
  {t : Tables q p K} {c : Nat → Nat → Cell q p K}

/-- Slack periods of the simulated path. -/
theorem path_slack (hS : Solved M M' f omg lam lMax kMax t c) (hT : M.T.toBlocks₁₂ = 0) (hk : KleinOK M omg lam)
    {l k : Nat} (hl : l ≤ lMax) (hkk : k ≤ kMax) (q0 : q → K) (s : Nat) (hs : s < l ∨ l + k ≤ s) :
    M.S *ᵥ Sum.elim (qPath c l k q0 (s+1)) (pPath c l k q0 (s+1)) =
      M.T *ᵥ Sum.elim (qPath c l k q0 s) (pPath c l k q0 s) := by
  obtain ⟨n1, n2, n3, n4, n5, n6⟩ := normalise_ok hS.norm
  rcases hs with hs | hs
  · rw [← n1]
    have hloc : locCell c l k s = c (l - s) k := by
      unfold locCell lLoc kLoc; congr 1; omega
    have hloc' : locCell c l k (s+1) = c (lastIdx (l - s) k).1 (lastIdx (l - s) k).2 := by
      rw [lastIdx_pos (by omega)]
      unfold locCell lLoc kLoc; congr 1; omega
    have hst := hS.complete.step (l - s) k (by omega) (by omega) (Or.inr (by omega))
    have hne : l - s ≠ 0 := by omega
    have := stepCell_solves hst (by simp [rhsMat, hne, n5, hT]) (by simp [rhsMat, hne, n3]) (qPath c l k q0 s)
    simp only [lhsMat, rhsMat, rhsVec, hne, ne_eq, not_false_eq_true, if_true, add_zero] at this
    simp only [qPath, pPath, hloc, hloc']
    exact this
  · have hloc : ∀ s', l + k ≤ s' → locCell c l k s' = ⟨omg, 0, lam, 0⟩ := by
      intro s' hs'
      rw [← hS.complete.start]
      unfold locCell lLoc kLoc
      congr 1 <;> omega
    simp only [qPath, pPath, hloc s hs, hloc (s+1) (by omega), add_zero]
    exact hk _

/-- Binding periods of the simulated path. -/
theorem path_binding (hS : Solved M M' f omg lam lMax kMax t c) (hW : M.W.toBlocks₁₂ = 0)
    {l k : Nat} (hkk : k ≤ kMax) (q0 : q → K) (s : Nat) (hs : l ≤ s) (hs' : s < l + k) :
    M.V *ᵥ Sum.elim (qPath c l k q0 (s+1)) (pPath c l k q0 (s+1)) =
      M.W *ᵥ Sum.elim (qPath c l k q0 s) (pPath c l k q0 s) + M.h := by
  obtain ⟨n1, n2, n3, n4, n5, n6⟩ := normalise_ok hS.norm
  rw [← n2]
  have hloc : locCell c l k s = c 0 (k + l - s) := by
    unfold locCell lLoc kLoc; congr 1 <;> omega
  have hloc' : locCell c l k (s+1) = c (lastIdx 0 (k + l - s)).1 (lastIdx 0 (k + l - s)).2 := by
    rw [lastIdx_zero]
    unfold locCell lLoc kLoc; congr 1 <;> omega
  have hst := hS.complete.step 0 (k + l - s) (by omega) (by omega) (Or.inl (by omega))
  have := stepCell_solves hst (by simp [rhsMat, n6, hW]) (by simp [rhsMat, n4]) (qPath c l k q0 s)
  simp only [lhsMat, rhsMat, rhsVec, ne_eq, not_true_eq_false, if_false] at this
  simp only [qPath, pPath, hloc, hloc']
  exact this

end Algebra
end Pydsge.Engine
