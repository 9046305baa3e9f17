import Verif.Lemmas.Paths

/-! # A sufficient condition for preprocessing to succeed -/

set_option autoImplicit false
set_option linter.unusedSectionVars false

namespace Pydsge.Engine

open Matrix

variable {q p K : Type} [Fintype q] [Fintype p] [DecidableEq q] [DecidableEq p] [Field K] [DecidableEq K]

theorem lkStep_match (M : Sys q p K) (l : Nat) (mem : Mem q p K) (k : Nat) (h : k ≠ 0 ∨ l ≠ 0) :
    lkStep M l mem k = match mem (l - 1) (if l ≠ 0 then k else k - 1) with
      | none => .error .uninit
      | some c => match stepCell M l c with
        | .error e => .error e
        | .ok c' => .ok (mem.set l k c') := by
  unfold lkStep
  rw [if_pos h]
  dsimp only
  cases mem (l - 1) (if l ≠ 0 then k else k - 1) with
  | none => rfl
  | some c =>
    unfold stepCell
    dsimp only
    cases getLam c.pmat c.pterm M l with
    | error e => rfl
    | ok r => rfl

/-- If a property of cells holds at the start and every step from a cell with the property succeeds and keeps it, the
recursion never meets a singular matrix. -/
theorem lkLoop_not_singular {M : Sys q p K} {omg : Matrix p q K} {lam : Matrix q q K} (I : Cell q p K → Prop)
    (h0 : I ⟨omg, 0, lam, 0⟩) (hstep : ∀ l c, I c → ∃ c', stepCell M l c = .ok c' ∧ I c') (L Kk : Nat) :
    lkLoop M omg lam L Kk ≠ .error .linAlg := by
  let P : Mem q p K → Prop := fun mem => ∀ l k c, mem l k = some c → I c
  let Good : Except PyErr (Mem q p K) → Prop := fun r => r ≠ .error .linAlg ∧ ∀ mem, r = .ok mem → P mem
  have hs : ∀ l mem k, P mem → Good (lkStep M l mem k) := by
    intro l mem k hP
    by_cases h : k ≠ 0 ∨ l ≠ 0
    · rw [lkStep_match M l mem k h]
      cases hm : mem (l - 1) (if l ≠ 0 then k else k - 1) with
      | none => exact ⟨by simp, by simp⟩
      | some c =>
        obtain ⟨c', h1, h2⟩ := hstep l c (hP _ _ _ hm)
        dsimp only
        rw [h1]
        refine ⟨by simp, ?_⟩
        intro mem' hm'
        simp only [Except.ok.injEq] at hm'
        subst hm'
        intro l' k' c'' hc
        unfold Mem.set at hc
        split_ifs at hc with hh
        · simp only [Option.some.injEq] at hc; rw [← hc]; exact h2
        · exact hP _ _ _ hc
    · unfold lkStep
      rw [if_neg h]
      exact ⟨by simp, by intro mem' h'; simp only [Except.ok.injEq] at h'; rw [← h']; exact hP⟩
  have hin : ∀ l (ks : List Nat) mem, P mem → Good (ks.foldlM (lkStep M l) mem) := by
    intro l ks
    induction ks with
    | nil => intro mem hP; exact ⟨by simp [pure, Except.pure], by intro m' h'; simp only [List.foldlM_nil, pure, Except.pure, Except.ok.injEq] at h'; rw [← h']; exact hP⟩
    | cons k ks ih =>
      intro mem hP
      rw [List.foldlM_cons]
      have h1 := hs l mem k hP
      cases hk : lkStep M l mem k with
      | error e =>
        rw [hk] at h1
        exact ⟨h1.1, by intro m' h'; cases h'⟩
      | ok mem' => exact ih mem' (h1.2 mem' hk)
  have hout : ∀ (ls : List Nat) mem, P mem →
      Good (ls.foldlM (fun mem l => (List.range Kk).foldlM (lkStep M l) mem) mem) := by
    intro ls
    induction ls with
    | nil => intro mem hP; exact ⟨by simp [pure, Except.pure], by intro m' h'; simp only [List.foldlM_nil, pure, Except.pure, Except.ok.injEq] at h'; rw [← h']; exact hP⟩
    | cons l ls ih =>
      intro mem hP
      rw [List.foldlM_cons]
      have h1 := hin l (List.range Kk) mem hP
      cases hk : (List.range Kk).foldlM (lkStep M l) mem with
      | error e =>
        rw [hk] at h1
        exact ⟨h1.1, by intro m' h'; cases h'⟩
      | ok mem' => exact ih mem' (h1.2 mem' hk)
  refine (hout (List.range L) _ ?_).1
  intro l k c hc
  unfold Mem.set at hc
  split_ifs at hc
  simp only [Option.some.injEq] at hc
  rw [← hc]; exact h0

theorem preprocess_succeeds {M M' : Sys q p K} (f : Fun3 q p K) {omg : Matrix p q K} {lam : Matrix q q K}
    (hn : normalise M = .ok M') (I : Cell q p K → Prop) (h0 : I ⟨omg, 0, lam, 0⟩)
    (hstep : ∀ l c, I c → ∃ c', stepCell M' l c = .ok c' ∧ I c') (lMax kMax : Nat) {sched : Nat → List Nat}
    (hs : ∀ l < lMax + 1, (sched l).Perm (List.range (kMax + 1))) :
    ∃ t, preprocess M f omg lam lMax kMax sched = .ok t := by
  rcases preprocess_spec M f omg lam lMax kMax sched hs with ⟨_, t, _, h, _⟩ | h
  · exact ⟨t, h⟩
  · exfalso
    unfold preprocess at h
    dsimp only at h
    rw [hn] at h
    dsimp only at h
    rcases lkLoop_spec M' omg lam (lMax + 1) (kMax + 1) (by omega) (by omega) with ⟨mem, c, h1, h2⟩ | h1
    · rw [h1] at h
      dsimp only at h
      rw [bLoop_spec f mem c (lMax + 1) (kMax + 1) h2.filled sched hs] at h
      cases h
    · exact lkLoop_not_singular I h0 hstep _ _ h1

end Pydsge.Engine
