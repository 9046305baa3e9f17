import Verif.Lemmas.Search

/-! # `find_lk` only looks at cells inside the table -/

set_option autoImplicit false

namespace Pydsge.Engine

variable {K : Type} [Field K] [LinearOrder K]

/-- Two readers agree on all cells of an `L × Kk` table. -/
def AgreeInside (rd rd' : Reader K) (L Kk : Nat) : Prop := ∀ i l k, l < L → k < Kk → rd i l k = rd' i l k

/-- Reads inside the table are never out of bounds. -/
def SafeInside (rd : Reader K) (L Kk : Nat) : Prop := ∀ i l k, l < L → k < Kk → rd i l k ≠ .error .oob

theorem slackLoop_congr {rd rd' : Reader K} {L Kk : Nat} (h : AgreeInside rd rd' L Kk) (hK : 0 < Kk) (xbar : K)
    (l : Nat) : slackLoop rd xbar L l = slackLoop rd' xbar L l := by
  induction hn : L - l generalizing l with
  | zero => rw [slackLoop.eq_def rd, slackLoop.eq_def rd', if_neg (by omega), if_neg (by omega)]
  | succ n ih =>
    have hl : l < L := by omega
    rw [slackLoop.eq_def rd, slackLoop.eq_def rd', if_pos hl, if_pos hl, h 2 l 0 hl hK, ih (l+1) (by omega)]

theorem accepts_congr {rd rd' : Reader K} {L Kk : Nat} (h : AgreeInside rd rd' L Kk) (xbar : K)
    {l k : Nat} (hl : l < L) (hk : k < Kk) : accepts rd xbar l k = accepts rd' xbar l k := by
  simp only [accepts, h _ l k hl hk]

theorem bruiteK_congr {rd rd' : Reader K} {L Kk : Nat} (h : AgreeInside rd rd' L Kk) (xbar : K)
    {l : Nat} (hl : l < L) (k : Nat) : bruiteK rd xbar Kk l k = bruiteK rd' xbar Kk l k := by
  induction hn : Kk - k generalizing k with
  | zero => rw [bruiteK.eq_def rd, bruiteK.eq_def rd', if_neg (by omega), if_neg (by omega)]
  | succ n ih =>
    have hk : k < Kk := by omega
    rw [bruiteK.eq_def rd, bruiteK.eq_def rd', if_pos hk, if_pos hk, accepts_congr h xbar hl hk, ih (k+1) (by omega)]

theorem bruiteL_congr {rd rd' : Reader K} {L Kk : Nat} (h : AgreeInside rd rd' L Kk) (xbar : K)
    (l : Nat) : bruiteL rd xbar L Kk l = bruiteL rd' xbar L Kk l := by
  induction hn : L - l generalizing l with
  | zero => rw [bruiteL.eq_def rd, bruiteL.eq_def rd', if_neg (by omega), if_neg (by omega)]
  | succ n ih =>
    have hl : l < L := by omega
    rw [bruiteL.eq_def rd, bruiteL.eq_def rd', if_pos hl, if_pos hl, bruiteK_congr h xbar hl 1, ih (l+1) (by omega)]

theorem approxLoop_congr {rd rd' : Reader K} {L Kk : Nat} (h : AgreeInside rd rd' L Kk) (hL : 0 < L) (xbar : K)
    (k : Nat) (lt : Bool) : approxLoop rd xbar Kk k lt = approxLoop rd' xbar Kk k lt := by
  induction hn : Kk - k generalizing k lt with
  | zero => rw [approxLoop.eq_def rd, approxLoop.eq_def rd', if_neg (by omega), if_neg (by omega)]
  | succ n ih =>
    by_cases hk : k + 1 < Kk
    · rw [approxLoop.eq_def rd, approxLoop.eq_def rd', if_pos hk, if_pos hk, h 4 0 (k+1) hL hk]
      simp only [ih (k+1) _ (by omega)]
    · rw [approxLoop.eq_def rd, approxLoop.eq_def rd', if_neg hk, if_neg hk]

theorem findLk_congr {rd rd' : Reader K} {L Kk : Nat} (h : AgreeInside rd rd' L Kk) (hL : 0 < L) (hK : 0 < Kk)
    (xbar : K) : findLk rd xbar L Kk = findLk rd' xbar L Kk := by
  simp only [findLk, bruiteWrapper, slackLoop_congr h hK, bruiteL_congr h, approxLoop_congr h hL]

theorem slackLoop_safe {rd : Reader K} {L Kk : Nat} (h : SafeInside rd L Kk) (hK : 0 < Kk) (xbar : K)
    (l : Nat) (hl : l < L) : slackLoop rd xbar L l ≠ .error .oob := by
  induction hn : L - l generalizing l with
  | zero => omega
  | succ n ih =>
    rw [slackLoop, if_pos hl]
    cases hv : rd 2 l 0 with
    | error e => intro hc; exact h 2 l 0 hl hK (by rw [hv]; simpa using hc)
    | ok v =>
      dsimp only
      split_ifs
      · simp
      · exact ih (l+1) (by omega) (by omega)
      · simp

theorem bind_safe {α β : Type} {x : Except PyErr α} {f : α → Except PyErr β} (hx : x ≠ .error .oob)
    (hf : ∀ a, f a ≠ .error .oob) : (x >>= f) ≠ .error .oob := by
  cases x with
  | error e => intro hc; exact hx (by simpa [bind, Except.bind] using hc)
  | ok a => exact hf a

theorem ok_safe {α : Type} (a : α) : (pure a : Except PyErr α) ≠ .error .oob := by
  simp [pure, Except.pure]

theorem accepts_safe {rd : Reader K} {L Kk : Nat} (h : SafeInside rd L Kk) (xbar : K)
    {l k : Nat} (hl : l < L) (hk : k < Kk) : accepts rd xbar l k ≠ .error .oob := by
  have h' := fun i => h i l k hl hk
  unfold accepts
  dsimp only
  repeat' first
    | exact ok_safe _
    | exact bind_safe (h' _) (fun v => by
        repeat' first
          | exact ok_safe _
          | refine bind_safe (h' _) (fun v => ?_)
          | split)
    | refine bind_safe (h' _) (fun v => ?_)
    | split

theorem bruiteK_safe {rd : Reader K} {L Kk : Nat} (h : SafeInside rd L Kk) (xbar : K)
    {l : Nat} (hl : l < L) (k : Nat) : bruiteK rd xbar Kk l k ≠ .error .oob := by
  induction hn : Kk - k generalizing k with
  | zero => rw [bruiteK, if_neg (by omega)]; simp
  | succ n ih =>
    have hk : k < Kk := by omega
    rw [bruiteK, if_pos hk]
    cases hv : accepts rd xbar l k with
    | error e => intro hc; exact accepts_safe h xbar hl hk (by rw [hv]; simpa using hc)
    | ok v =>
      cases v
      · exact ih (k+1) (by omega)
      · simp

theorem bruiteL_safe {rd : Reader K} {L Kk : Nat} (h : SafeInside rd L Kk) (xbar : K)
    (l : Nat) : bruiteL rd xbar L Kk l ≠ .error .oob := by
  induction hn : L - l generalizing l with
  | zero => rw [bruiteL, if_neg (by omega)]; simp
  | succ n ih =>
    have hl : l < L := by omega
    rw [bruiteL, if_pos hl]
    cases hv : bruiteK rd xbar Kk l 1 with
    | error e => intro hc; exact bruiteK_safe h xbar hl 1 (by rw [hv]; simpa using hc)
    | ok v =>
      cases v
      · exact ih (l+1) (by omega)
      · simp

theorem approxLoop_safe {rd : Reader K} {L Kk : Nat} (h : SafeInside rd L Kk) (hL : 0 < L) (xbar : K)
    (k : Nat) (hk : k + 1 < Kk) (lt : Bool) : approxLoop rd xbar Kk k lt ≠ .error .oob := by
  induction hn : Kk - k generalizing k lt with
  | zero => omega
  | succ n ih =>
    rw [approxLoop, if_pos hk]
    cases hv : rd 4 0 (k+1) with
    | error e => intro hc; exact h 4 0 (k+1) hL hk (by rw [hv]; simpa using hc)
    | ok v =>
      dsimp only
      split_ifs
      · simp
      · exact ih (k+1) (by omega) _ (by omega)
      · simp
      · simp
      · exact ih (k+1) (by omega) _ (by omega)

theorem findLk_safe {rd : Reader K} {L Kk : Nat} (h : SafeInside rd L Kk) (hL : 0 < L) (hK : 1 < Kk) (xbar : K) :
    findLk rd xbar L Kk ≠ .error .oob := by
  unfold findLk bruiteWrapper
  cases h1 : slackLoop rd xbar L 0 with
  | error e => intro hc; exact slackLoop_safe h (by omega) xbar 0 hL (by rw [h1]; simpa using hc)
  | ok l =>
    dsimp only
    split_ifs
    · cases h2 : bruiteL rd xbar L Kk 0 with
      | error e => intro hc; exact bruiteL_safe h xbar 0 (by rw [h2]; simpa using hc)
      | ok r =>
        cases r with
        | none =>
          dsimp only
          cases h3 : approxLoop rd xbar Kk 0 false with
          | error e => intro hc; exact approxLoop_safe h hL xbar 0 (by omega) false (by rw [h3]; simpa using hc)
          | ok r => simp
        | some r =>
          dsimp only
          split_ifs
          · cases h3 : approxLoop rd xbar Kk 0 false with
            | error e => intro hc; exact approxLoop_safe h hL xbar 0 (by omega) false (by rw [h3]; simpa using hc)
            | ok r => simp
          · simp
    · simp

end Pydsge.Engine
