import Verif.Model.Engine
import Verif.Spec.Search

/-! # Lemmas on `find_lk` -/

set_option autoImplicit false

namespace Pydsge.Engine
open Pydsge.Spec

variable {K : Type} [Field K] [LinearOrder K] [IsStrictOrderedRing K]

/-- The reader delivers the values `v` at every cell of the table that preprocessing writes. -/
def Reads (rd : Reader K) (v : Fin 5 → Nat → Nat → K) (L Kk : Nat) : Prop :=
  ∀ i l k, l < L → k < Kk → (i = 1 → 0 < l) → (i = 3 → 0 < l + k) → rd i l k = .ok (v i l k)

theorem slackLoop_spec {rd : Reader K} {v : Fin 5 → Nat → Nat → K} {xbar : K} {L Kk : Nat}
    (hr : Reads rd v L Kk) (hK : 0 < Kk) (l : Nat) (hl : l < L) :
    ((∀ j, l ≤ j → j < L → xbar < v 2 j 0) ∧ slackLoop rd xbar L l = .ok L) ∨
    ((∃ j, l ≤ j ∧ j < L ∧ v 2 j 0 ≤ xbar) ∧ ∃ j, j < L ∧ slackLoop rd xbar L l = .ok j) := by
  induction hn : L - l generalizing l with
  | zero => omega
  | succ n ih =>
    rw [slackLoop, if_pos hl, hr 2 l 0 hl hK (by simp) (by simp)]
    simp only [gt_iff_lt, sub_pos]
    by_cases hv : xbar < v 2 l 0
    · rw [if_pos hv]
      by_cases hL : l + 1 = L
      · left
        refine ⟨?_, by simp [hL]⟩
        intro j h1 h2
        have : j = l := by omega
        rwa [this]
      · rw [if_neg hL]
        rcases ih (l+1) (by omega) (by omega) with ⟨h1, h2⟩ | ⟨⟨j, hj⟩, h2⟩
        · left
          refine ⟨?_, h2⟩
          intro j h3 h4
          rcases Nat.eq_or_lt_of_le h3 with h | h
          · rwa [← h]
          · exact h1 j h h4
        · right
          exact ⟨⟨j, by omega, hj.2⟩, h2⟩
    · right
      rw [if_neg hv]
      exact ⟨⟨l, le_rfl, hl, not_lt.1 hv⟩, l, hl, rfl⟩

open Classical in
theorem accepts_spec {rd : Reader K} {v : Fin 5 → Nat → Nat → K} {xbar : K} {L Kk : Nat}
    (hr : Reads rd v L Kk) {l k : Nat} (hl : l < L) (hk : k < Kk) (hk1 : 1 ≤ k) :
    accepts rd xbar l k = .ok (decide (Consistent v xbar l k)) := by
  have h0 := hr 0 l k hl hk (by simp) (by simp)
  have h1 : 0 < l → rd 1 l k = .ok (v 1 l k) := fun h => hr 1 l k hl hk (fun _ => h) (by simp)
  have h2 := hr 2 l k hl hk (by simp) (by simp)
  have h3 := hr 3 l k hl hk (by simp) (fun _ => by omega)
  have h4 := hr 4 l k hl hk (by simp) (by simp)
  have key : Consistent v xbar l k ↔ ((l ≠ 0 → ¬ v 0 l k - xbar < 0) ∧ (l > 1 → ¬ v 1 l k - xbar < 0) ∧
      ¬ v 4 l k - xbar < 0 ∧ ¬ v 2 l k - xbar > 0 ∧ (k > 1 → ¬ v 3 l k - xbar > 0)) := by
    simp only [sub_neg, gt_iff_lt, sub_pos, not_lt]
    constructor
    · intro h
      exact ⟨fun hl => h.start (by omega), fun hl => h.before (by omega), h.exit, h.first, fun hk => h.last (by omega)⟩
    · rintro ⟨a, b, c, d, e⟩
      exact ⟨hk1, fun hl => a (by omega), fun hl => b (by omega), c, d, fun hk => e (by omega)⟩
  have hd : decide (Consistent v xbar l k) = decide ((l ≠ 0 → ¬ v 0 l k - xbar < 0) ∧ (l > 1 → ¬ v 1 l k - xbar < 0) ∧
      ¬ v 4 l k - xbar < 0 ∧ ¬ v 2 l k - xbar > 0 ∧ (k > 1 → ¬ v 3 l k - xbar > 0)) := by
    simp only [key]
  rw [hd]
  unfold accepts
  rw [h0, h2, h3, h4]
  by_cases hl0 : l = 0
  · subst hl0
    by_cases c4 : v 4 0 k - xbar < 0 <;> by_cases c2 : v 2 0 k - xbar > 0 <;> by_cases ck : k > 1 <;>
      by_cases c3 : v 3 0 k - xbar > 0 <;>
      simp [c4, c2, ck, c3, bind, Except.bind, pure, Except.pure]
  · rw [h1 (by omega)]
    by_cases c0 : v 0 l k - xbar < 0 <;> by_cases cl : l > 1 <;> by_cases c1 : v 1 l k - xbar < 0 <;>
    by_cases c4 : v 4 l k - xbar < 0 <;> by_cases c2 : v 2 l k - xbar > 0 <;> by_cases ck : k > 1 <;>
      by_cases c3 : v 3 l k - xbar > 0 <;>
      simp [hl0, c0, cl, c1, c4, c2, ck, c3, bind, Except.bind, pure, Except.pure]

theorem bruiteK_spec {rd : Reader K} {v : Fin 5 → Nat → Nat → K} {xbar : K} {L Kk : Nat}
    (hr : Reads rd v L Kk) {l : Nat} (hl : l < L) (k : Nat) (hk1 : 1 ≤ k) :
    ((∀ k', k ≤ k' → k' < Kk → ¬ Consistent v xbar l k') ∧ bruiteK rd xbar Kk l k = .ok none) ∨
    ∃ k0, k ≤ k0 ∧ k0 < Kk ∧ Consistent v xbar l k0 ∧ (∀ k', k ≤ k' → k' < k0 → ¬ Consistent v xbar l k') ∧
      bruiteK rd xbar Kk l k = .ok (some (l, k0)) := by
  induction hn : Kk - k generalizing k with
  | zero =>
    left
    rw [bruiteK, if_neg (by omega)]
    exact ⟨fun k' _ _ => by omega, rfl⟩
  | succ n ih =>
    have hk : k < Kk := by omega
    rw [bruiteK, if_pos hk, accepts_spec hr hl hk hk1]
    by_cases hc : Consistent v xbar l k
    · right
      exact ⟨k, le_rfl, hk, hc, fun k' _ _ => by omega, by simp [hc]⟩
    · simp only [hc, decide_false]
      have ext : ∀ {b : Nat}, (∀ k', k + 1 ≤ k' → k' < b → ¬ Consistent v xbar l k') →
          ∀ k', k ≤ k' → k' < b → ¬ Consistent v xbar l k' := by
        intro b h k' h1 h2
        rcases Nat.eq_or_lt_of_le h1 with h' | h'
        · rwa [← h']
        · exact h k' h' h2
      rcases ih (k+1) (by omega) (by omega) with ⟨h1, h2⟩ | ⟨k0, h1, h2, h3, h4, h5⟩
      · left
        exact ⟨ext h1, h2⟩
      · right
        exact ⟨k0, by omega, h2, h3, ext h4, h5⟩

theorem bruiteL_spec {rd : Reader K} {v : Fin 5 → Nat → Nat → K} {xbar : K} {L Kk : Nat}
    (hr : Reads rd v L Kk) (l : Nat) :
    ((∀ l' k', l ≤ l' → l' < L → k' < Kk → ¬ Consistent v xbar l' k') ∧ bruiteL rd xbar L Kk l = .ok none) ∨
    ∃ l0 k0, l ≤ l0 ∧ l0 < L ∧ k0 < Kk ∧ Consistent v xbar l0 k0 ∧
      (∀ l' k', l ≤ l' → l' < L → k' < Kk → Consistent v xbar l' k' → ¬ LexLt (l', k') (l0, k0)) ∧
      bruiteL rd xbar L Kk l = .ok (some (l0, k0)) := by
  induction hn : L - l generalizing l with
  | zero =>
    left
    rw [bruiteL, if_neg (by omega)]
    exact ⟨fun l' k' _ _ => by omega, rfl⟩
  | succ n ih =>
    have hl : l < L := by omega
    rw [bruiteL, if_pos hl]
    rcases bruiteK_spec (xbar := xbar) hr hl 1 le_rfl with ⟨h1, h2⟩ | ⟨k0, h1, h2, h3, h4, h5⟩
    · rw [h2]
      have hno : ∀ k', k' < Kk → ¬ Consistent v xbar l k' := fun k' hk' hc => h1 k' hc.binds hk' hc
      rcases ih (l+1) (by omega) with ⟨g1, g2⟩ | ⟨l0, k0, g1, g2, g3, g4, g5, g6⟩
      · left
        refine ⟨?_, g2⟩
        intro l' k' a b c
        rcases Nat.eq_or_lt_of_le a with h' | h'
        · subst h'; exact hno k' c
        · exact g1 l' k' h' b c
      · right
        refine ⟨l0, k0, by omega, g2, g3, g4, ?_, g6⟩
        intro l' k' a b c d
        rcases Nat.eq_or_lt_of_le a with h' | h'
        · subst h'; exact absurd d (hno k' c)
        · exact g5 l' k' h' b c d
    · right
      rw [h5]
      refine ⟨l, k0, le_rfl, hl, h2, h3, ?_, rfl⟩
      rintro l' k' a b c d (h | ⟨h, h'⟩)
      · simp only at h; omega
      · simp only at h h'
        subst h
        exact h4 k' d.binds h' d

theorem approxLoop_spec {rd : Reader K} {v : Fin 5 → Nat → Nat → K} {xbar : K} {L Kk : Nat}
    (hr : Reads rd v L Kk) (hL : 0 < L) (k : Nat) (hk : k + 1 < Kk) (lt : Bool) :
    ∃ k' flag, k < k' ∧ k' < Kk ∧ approxLoop rd xbar Kk k lt = .ok (k', flag) ∧
      ((flag = 1 ∧ xbar < v 4 0 k') ∨ (flag = 2 ∧ k' + 1 = Kk)) := by
  induction hn : Kk - k generalizing k lt with
  | zero => omega
  | succ n ih =>
    rw [approxLoop, if_pos hk, hr 4 0 (k+1) hL hk (by simp) (by simp)]
    dsimp only
    by_cases hlt : lt = false
    · rw [if_pos hlt]
      by_cases h2 : k + 2 = Kk
      · rw [if_pos h2]
        exact ⟨k+1, 2, by omega, by omega, rfl, Or.inr ⟨rfl, by omega⟩⟩
      · rw [if_neg h2]
        obtain ⟨k', f, a, b, c⟩ := ih (k+1) (by omega) (decide (v 4 0 (k+1) - xbar < 0)) (by omega)
        exact ⟨k', f, by omega, b, c⟩
    · rw [if_neg hlt]
      by_cases hv : v 4 0 (k+1) - xbar > 0
      · rw [if_pos hv]
        exact ⟨k+1, 1, by omega, hk, rfl, Or.inl ⟨rfl, by simpa using hv⟩⟩
      · rw [if_neg hv]
        by_cases h2 : k + 2 = Kk
        · rw [if_pos h2]
          exact ⟨k+1, 2, by omega, by omega, rfl, Or.inr ⟨rfl, by omega⟩⟩
        · rw [if_neg h2]
          obtain ⟨k', f, a, b, c⟩ := ih (k+1) (by omega) lt (by omega)
          exact ⟨k', f, by omega, b, c⟩

/-- Complete description of the outcomes of `find_lk` on a table with at most 999 rows. -/
theorem findLk_spec {rd : Reader K} {v : Fin 5 → Nat → Nat → K} {xbar : K} {L Kk : Nat}
    (hr : Reads rd v L Kk) (hL : 0 < L) (hL' : L ≤ 999) (hK1 : 1 < Kk) :
    (NeverBinds v xbar L ∧ findLk rd xbar L Kk = .ok (0, 0, 0)) ∨
    (¬ NeverBinds v xbar L ∧ ∃ l k, LeastConsistent v xbar L Kk l k ∧ findLk rd xbar L Kk = .ok (l, k, 0)) ∨
    (¬ NeverBinds v xbar L ∧ (∀ l k, l < L → k < Kk → ¬ Consistent v xbar l k) ∧
      ∃ k flag, 0 < k ∧ k < Kk ∧ ((flag = 1 ∧ xbar < v 4 0 k) ∨ (flag = 2 ∧ k + 1 = Kk)) ∧
        findLk rd xbar L Kk = .ok (0, k, flag)) := by
  unfold findLk
  rcases slackLoop_spec (xbar := xbar) hr (by omega) 0 hL with ⟨h1, h2⟩ | ⟨⟨j, h1⟩, j', h2, h3⟩
  · left
    rw [h2]
    simp only [lt_self_iff_false, if_false, and_true]
    exact fun j hj => h1 j (by omega) hj
  · right
    have hn : ¬ NeverBinds v xbar L := fun h => absurd (h j h1.2.1) (not_lt.2 h1.2.2)
    rw [h3]
    simp only [h2, if_true, bruiteWrapper]
    rcases bruiteL_spec (xbar := xbar) hr 0 with ⟨g1, g2⟩ | ⟨l0, k0, g1, g2, g3, g4, g5, g6⟩
    · right
      rw [g2]
      simp only [if_true]
      have hno : ∀ l k, l < L → k < Kk → ¬ Consistent v xbar l k := fun l k a b => g1 l k (by omega) a b
      obtain ⟨k', f, a, b, c, d⟩ := approxLoop_spec (xbar := xbar) hr hL 0 (by omega) false
      refine ⟨hn, hno, k', f, a, b, d, ?_⟩
      rw [c]
    · left
      rw [g6]
      have : l0 ≠ 999 := by omega
      simp only [this, if_false]
      exact ⟨hn, l0, k0, ⟨g2, g3, g4, fun l' k' a b c => g5 l' k' (by omega) a b c⟩, rfl⟩

/-- What the search can return, without a bound on the table size. -/
theorem findLk_cases {rd : Reader K} {v : Fin 5 → Nat → Nat → K} {xbar : K} {L Kk : Nat}
    (hr : Reads rd v L Kk) (hL : 0 < L) (hK1 : 1 < Kk) :
    ∃ l k flag, findLk rd xbar L Kk = .ok (l, k, flag) ∧ l < L ∧ k < Kk ∧
      ((l = 0 ∧ k = 0 ∧ flag = 0 ∧ NeverBinds v xbar L) ∨ (flag = 0 ∧ Consistent v xbar l k) ∨ (l = 0 ∧ 0 < k ∧ flag ≠ 0)) := by
  unfold findLk
  rcases slackLoop_spec (xbar := xbar) hr (by omega) 0 hL with ⟨h1, h2⟩ | ⟨⟨j, h1⟩, j', h2, h3⟩
  · rw [h2]
    simp only [lt_self_iff_false, if_false]
    exact ⟨0, 0, 0, rfl, hL, by omega, Or.inl ⟨rfl, rfl, rfl, fun j hj => h1 j (by omega) hj⟩⟩
  · rw [h3]
    obtain ⟨k', f, a, b, c, d⟩ := approxLoop_spec (xbar := xbar) hr hL 0 (by omega) false
    have hf : f ≠ 0 := by rcases d with ⟨d, _⟩ | ⟨d, _⟩ <;> omega
    simp only [h2, if_true, bruiteWrapper]
    rcases bruiteL_spec (xbar := xbar) hr 0 with ⟨g1, g2⟩ | ⟨l0, k0, g1, g2, g3, g4, g5, g6⟩
    · rw [g2]
      simp only [if_true, c]
      exact ⟨0, k', f, rfl, hL, b, Or.inr (Or.inr ⟨rfl, a, hf⟩)⟩
    · rw [g6]
      by_cases h9 : l0 = 999
      · simp only [h9, if_true, c]
        exact ⟨0, k', f, rfl, hL, b, Or.inr (Or.inr ⟨rfl, a, hf⟩)⟩
      · simp only [h9, if_false]
        exact ⟨l0, k0, 0, rfl, g2, g3, Or.inr (Or.inl ⟨rfl, g4⟩)⟩

end Pydsge.Engine
