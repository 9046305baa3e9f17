import Verif.Lemmas.Engine

/-! # Lemmas on the constraint tables `bmat, bterm` and `tmat, tterm` -/

set_option autoImplicit false
set_option linter.unusedSectionVars false

namespace Pydsge.Engine

open Matrix

variable {q p K : Type} [Fintype q] [Fintype p] [DecidableEq q] [DecidableEq p] [Field K]

/-- Cell used `s` periods into the spell `(l,k)`. -/
def locCell (c : Nat → Nat → Cell q p K) (l k s : Nat) : Cell q p K := c (lLoc l s) (kLoc l k s)

/-- `lam`, `xi` at the start of iteration `s` of the inner loop. -/
def lamXi (c : Nat → Nat → Cell q p K) (l k : Nat) : Nat → Matrix q q K × (q → K)
  | 0 => (1, 0)
  | s + 1 =>
    let cc := locCell c l k s
    (cc.qmat * (lamXi c l k s).1, cc.qmat *ᵥ (lamXi c l k s).2 + cc.qterm)

/-- The row that iteration `s` computes. -/
def rowAt (f : Fun3 q p K) (c : Nat → Nat → Cell q p K) (l k s : Nat) : Row q K :=
  (y2r f (locCell c l k s) ᵥ* (lamXi c l k s).1, cr f (locCell c l k s) + y2r f (locCell c l k s) ⬝ᵥ (lamXi c l k s).2)

/-- The state after `s` periods of the spell. -/
def qPath (c : Nat → Nat → Cell q p K) (l k : Nat) (q0 : q → K) : Nat → q → K
  | 0 => q0
  | s + 1 => (locCell c l k s).qmat *ᵥ qPath c l k q0 s + (locCell c l k s).qterm

/-- The controls after `s` periods of the spell. -/
def pPath (c : Nat → Nat → Cell q p K) (l k : Nat) (q0 : q → K) (s : Nat) : p → K :=
  (locCell c l k s).pmat *ᵥ qPath c l k q0 s + (locCell c l k s).pterm

theorem qPath_eq (c : Nat → Nat → Cell q p K) (l k : Nat) (q0 : q → K) (s : Nat) :
    qPath c l k q0 s = (lamXi c l k s).1 *ᵥ q0 + (lamXi c l k s).2 := by
  induction s with
  | zero => simp [qPath, lamXi]
  | succ s ih => simp [qPath, lamXi, ih, mulVec_add, add_assoc]

/-- The value of a row is the value of the constraint functional on the simulated path. -/
theorem rowAt_value (f : Fun3 q p K) (c : Nat → Nat → Cell q p K) (l k s : Nat) (q0 : q → K) :
    (rowAt f c l k s).1 ⬝ᵥ q0 + (rowAt f c l k s).2 =
      f.fp1 ⬝ᵥ pPath c l k q0 s + f.fq1 ⬝ᵥ qPath c l k q0 (s+1) + f.fq0 ⬝ᵥ qPath c l k q0 s := by
  simp only [rowAt, pPath, qPath, ← dotProduct_mulVec, y2r, cr]
  have h := qPath_eq c l k q0 s
  have : y2r f (locCell c l k s) ⬝ᵥ ((lamXi c l k s).1 *ᵥ q0) + y2r f (locCell c l k s) ⬝ᵥ (lamXi c l k s).2
      = y2r f (locCell c l k s) ⬝ᵥ qPath c l k q0 s := by
    rw [h, dotProduct_add]
  unfold y2r at this
  rw [add_left_comm, this]
  simp only [add_dotProduct, ← dotProduct_mulVec, dotProduct_add]
  ring

/-- which of the five slots iteration `s` writes -/
def slotAt (l k : Nat) (i : Fin 5) : Option Nat :=
  match i with
  | 0 => some 0
  | 1 => if l = 0 then none else some (l - 1)
  | 2 => some l
  | 3 => if l + k = 0 then none else some (l + k - 1)
  | 4 => some (l + k)

theorem kLoc_lt {Kk k : Nat} (l s : Nat) (hk : k < Kk) : kLoc l k s < Kk := by
  unfold kLoc; omega

theorem lLoc_lt {L l : Nat} (s : Nat) (hl : l < L) : lLoc l s < L := by
  unfold lLoc; omega

theorem bCell_spec (f : Fun3 q p K) (mem : Mem q p K) (c : Nat → Nat → Cell q p K) (L Kk l k : Nat)
    (hc : ∀ l k, l < L → k < Kk → mem l k = some (c l k)) (hl : l < L) (hk : k < Kk)
    (rows0 : Fin 5 → Option (Row q K)) :
    bCell f mem l k rows0 = .ok (fun i => match slotAt l k i with
      | none => rows0 i
      | some s => some (rowAt f c l k s)) := by
  let P : Nat → BState q K → Prop := fun n st => st.lam = (lamXi c l k n).1 ∧ st.xi = (lamXi c l k n).2 ∧
    ∀ i, st.rows i = match slotAt l k i with
      | none => rows0 i
      | some s => if s < n then some (rowAt f c l k s) else rows0 i
  have h := foldlM_range_inv (f := bInner f mem l k) P (fun _ => False) (l + k + 1) ⟨1, 0, rows0⟩ ?_ ?_
  · rcases h with ⟨st, h1, _, _, h4⟩ | ⟨e, _, h⟩
    · unfold bCell
      rw [h1]
      dsimp only
      congr 1
      funext i
      rw [h4 i]
      rcases hs : slotAt l k i with _ | s
      · rfl
      · dsimp only
        have : s < l + k + 1 := by
          unfold slotAt at hs
          split at hs
          · cases hs; omega
          · split_ifs at hs; cases hs; omega
          · cases hs; omega
          · split_ifs at hs; cases hs; omega
          · cases hs; omega
        rw [if_pos this]
    · exact h.elim
  · refine ⟨rfl, rfl, fun i => ?_⟩
    dsimp only
    split
    · rfl
    · rfl
  · rintro s st hs ⟨h1, h2, h3⟩
    left
    unfold bInner
    rw [hc _ _ (lLoc_lt s hl) (kLoc_lt l s hk)]
    refine ⟨_, rfl, ?_, ?_, ?_⟩
    · simp [lamXi, locCell, h1]
    · simp [lamXi, locCell, h2]
    · intro i
      dsimp only
      rw [h1, h2]
      have hrow : ((y2r f (c (lLoc l s) (kLoc l k s)) ᵥ* (lamXi c l k s).1,
        cr f (c (lLoc l s) (kLoc l k s)) + y2r f (c (lLoc l s) (kLoc l k s)) ⬝ᵥ (lamXi c l k s).2) : Row q K)
        = rowAt f c l k s := rfl
      rw [hrow, h3 i]
      have key : (∀ s', slotAt l k i = some s' → (hits l k s i = true ↔ s' = s)) ∧
          (slotAt l k i = none → hits l k s i = false) := by
        fin_cases i <;> simp only [slotAt, hits] <;> constructor
        all_goals first
          | (intro s' h; split_ifs at h; cases h; simp; omega)
          | (intro s' h; cases h; simp; omega)
          | (intro h; split_ifs at h; simp; omega)
          | (intro h; cases h)
      rcases hsl : slotAt l k i with _ | s'
      · rw [if_neg (by rw [key.2 hsl]; simp)]
      · dsimp only
        by_cases he : s' = s
        · subst he
          rw [if_pos ((key.1 s' hsl).2 rfl), if_pos (by omega)]
        · rw [if_neg (fun hh => he ((key.1 s' hsl).1 hh))]
          have : s' < s ↔ s' < s + 1 := by omega
          simp only [this]

theorem tCell_spec (f : Fun3 q p K) (mem : Mem q p K) (c : Nat → Nat → Cell q p K) (L Kk l k : Nat)
    (hc : ∀ l k, l < L → k < Kk → mem l k = some (c l k)) (hl : l < L) (hk : k < Kk)
    (rows0 : Nat → Option (Row q K)) :
    tCell f mem L Kk l k rows0 = .ok (fun s => if s < L + Kk then some (rowAt f c l k s) else rows0 s) := by
  let P : Nat → TState q K → Prop := fun n st => st.lam = (lamXi c l k n).1 ∧ st.xi = (lamXi c l k n).2 ∧
    ∀ s, st.rows s = if s < n then some (rowAt f c l k s) else rows0 s
  have h := foldlM_range_inv (f := tInner f mem l k) P (fun _ => False) (L + Kk) ⟨1, 0, rows0⟩ ?_ ?_
  · rcases h with ⟨st, h1, _, _, h4⟩ | ⟨e, _, h⟩
    · unfold tCell
      rw [h1]
      dsimp only
      congr 1
      funext s
      exact h4 s
    · exact h.elim
  · exact ⟨rfl, rfl, fun i => by simp⟩
  · rintro s st hs ⟨h1, h2, h3⟩
    left
    unfold tInner
    rw [hc _ _ (lLoc_lt s hl) (kLoc_lt l s hk)]
    refine ⟨_, rfl, ?_, ?_, ?_⟩
    · simp [lamXi, locCell, h1]
    · simp [lamXi, locCell, h2]
    · intro s'
      dsimp only
      rw [h1, h2, h3 s']
      by_cases he : s' = s
      · subst he
        simp [rowAt, locCell]
      · have : s' < s ↔ s' < s + 1 := by omega
        simp only [he, if_false, this]

/-- Any loop of the form "for l in range(L): for k in schedule(l): cells[l,k] = F(l,k)" fills the table with `F`,
whatever the order of the inner loop. -/
theorem fillLoop_spec {R : Type} (L Kk : Nat) (sched : Nat → List Nat) (hs : ∀ l < L, (sched l).Perm (List.range Kk))
    (step : Nat → (Nat → Nat → R) → Nat → Except PyErr (Nat → Nat → R)) (r0 : R) (F : Nat → Nat → R)
    (hstep : ∀ l b k, l < L → k < Kk → b l k = r0 →
      step l b k = .ok (fun l' k' => if l' = l ∧ k' = k then F l k else b l' k')) :
    (List.range L).foldlM (fun b l => (sched l).foldlM (step l) b) (fun _ _ => r0) =
      .ok (fun l k => if l < L ∧ k < Kk then F l k else r0) := by
  let P : Nat → (Nat → Nat → R) → Prop := fun n b => ∀ l k, b l k = if l < n ∧ k < Kk then F l k else r0
  have h := foldlM_range_inv (f := fun b l => (sched l).foldlM (step l) b) P (fun _ => False) L (fun _ _ => r0) ?_ ?_
  · rcases h with ⟨b, h1, h2⟩ | ⟨e, _, h⟩
    · rw [h1]
      congr 1
      funext l k
      exact h2 l k
    · exact h.elim
  · intro l k; simp
  · intro l b hl hb
    left
    have hperm := hs l hl
    have hmem : ∀ k, k ∈ sched l ↔ k < Kk := fun k => by rw [hperm.mem_iff, List.mem_range]
    have hnd : (sched l).Nodup := hperm.nodup_iff.2 List.nodup_range
    obtain ⟨b', h1, h2⟩ := foldlM_inv (f := step l)
      (fun done b' => ∀ l' k', b' l' k' = if l' = l ∧ k' ∈ done then F l k' else b l' k') (sched l) b (by simp) (by
        intro done k rest s hx hP
        have hk : k < Kk := (hmem k).1 (by rw [hx]; simp)
        have hkd : k ∉ done := by
          intro hin
          rw [hx] at hnd
          have := (List.nodup_append.1 hnd).2.2 k hin k (by simp)
          exact this rfl
        have hr0 : s l k = r0 := by
          rw [hP l k, if_neg (by simp [hkd]), hb l k, if_neg (by omega)]
        refine ⟨_, hstep l s k hl hk hr0, ?_⟩
        intro l' k'
        by_cases he : l' = l ∧ k' = k
        · obtain ⟨rfl, rfl⟩ := he
          simp
        · rw [if_neg he, hP l' k']
          by_cases hl' : l' = l
          · subst hl'
            have hk' : k' ≠ k := fun h => he ⟨rfl, h⟩
            simp [hk']
          · simp [hl'])
    refine ⟨b', h1, ?_⟩
    intro l' k'
    rw [h2 l' k']
    by_cases hl' : l' = l
    · subst hl'
      simp only [hmem, true_and]
      by_cases hk : k' < Kk
      · simp [hk]
      · simp [hk, hb l' k']
    · have : l' < l ↔ l' < l + 1 := by omega
      simp [hl', hb l' k', this]

/-- contents of cell `(l,k)` of `bmat, bterm` after preprocessing -/
def bRows (f : Fun3 q p K) (c : Nat → Nat → Cell q p K) (l k : Nat) : Fin 5 → Option (Row q K) := fun i =>
  match slotAt l k i with
  | none => none
  | some s => some (rowAt f c l k s)

theorem bLoop_spec (f : Fun3 q p K) (mem : Mem q p K) (c : Nat → Nat → Cell q p K) (L Kk : Nat)
    (hc : ∀ l k, l < L → k < Kk → mem l k = some (c l k)) (sched : Nat → List Nat)
    (hs : ∀ l < L, (sched l).Perm (List.range Kk)) :
    bLoop f mem L sched = .ok (fun l k => if l < L ∧ k < Kk then bRows f c l k else fun _ => none) := by
  unfold bLoop
  refine fillLoop_spec L Kk sched hs (bStep f mem) (fun _ => none) (bRows f c) ?_
  intro l b k hl hk hb
  unfold bStep
  rw [bCell_spec f mem c L Kk l k hc hl hk, hb]
  rfl

theorem tLoop_spec (f : Fun3 q p K) (mem : Mem q p K) (c : Nat → Nat → Cell q p K) (L Kk : Nat)
    (hc : ∀ l k, l < L → k < Kk → mem l k = some (c l k)) (sched : Nat → List Nat)
    (hs : ∀ l < L, (sched l).Perm (List.range Kk)) :
    tLoop f mem L Kk sched = .ok (fun l k => if l < L ∧ k < Kk then
      (fun s => if s < L + Kk then some (rowAt f c l k s) else none) else fun _ => none) := by
  unfold tLoop
  refine fillLoop_spec L Kk sched hs (tStep f mem L Kk) (fun _ => none)
    (fun l k s => if s < L + Kk then some (rowAt f c l k s) else none) ?_
  intro l b k hl hk hb
  unfold tStep
  rw [tCell_spec f mem c L Kk l k hc hl hk, hb]

end Pydsge.Engine
