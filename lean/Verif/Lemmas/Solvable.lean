import Verif.Lemmas.NonSingular
import Verif.Lemmas.Unique
import Mathlib.LinearAlgebra.Matrix.ToLinearEquiv

/-! # When preprocessing succeeds -/

set_option autoImplicit false
set_option linter.unusedSectionVars false

namespace Pydsge.Engine

open Matrix

variable {q p K : Type} [Fintype q] [Fintype p] [DecidableEq q] [DecidableEq p] [Field K] [DecidableEq K]

/-- If a property of cells holds at the start and every step of the double loop from a cell with the property succeeds and leads to a cell with
the property, the double loop succeeds. -/
theorem lkLoop_succeeds {M : Sys q p K} {omg : Matrix p q K} {lam : Matrix q q K} (L Kk : Nat) (I : Nat → Nat → Cell q p K → Prop)
    (h0 : I 0 0 ⟨omg, 0, lam, 0⟩)
    (hstep : ∀ l k c, l < L → k < Kk → (k ≠ 0 ∨ l ≠ 0) → I (lastIdx l k).1 (lastIdx l k).2 c → ∃ c', stepCell M l c = .ok c' ∧ I l k c') :
    lkLoop M omg lam L Kk ≠ .error .linAlg := by
  let P : Mem q p K → Prop := fun mem => ∀ l k c, mem l k = some c → I l k c
  let Good : Except PyErr (Mem q p K) → Prop := fun r => r ≠ .error .linAlg ∧ ∀ mem, r = .ok mem → P mem
  have hs : ∀ l mem k, l < L → k < Kk → P mem → Good (lkStep M l mem k) := by
    intro l mem k hl hk hP
    by_cases h : k ≠ 0 ∨ l ≠ 0
    · rw [lkStep_match M l mem k h]
      cases hm : mem (l - 1) (if l ≠ 0 then k else k - 1) with
      | none => exact ⟨by simp, by simp⟩
      | some c =>
        obtain ⟨c', h1, h2⟩ := hstep l k c hl hk h (hP _ _ _ hm)
        dsimp only
        rw [h1]
        refine ⟨by simp, ?_⟩
        intro mem' hm'
        simp only [Except.ok.injEq] at hm'
        subst hm'
        intro l' k' c'' hc
        unfold Mem.set at hc
        split_ifs at hc with hh
        · simp only [Option.some.injEq] at hc; rw [← hc, hh.1, hh.2]; exact h2
        · exact hP _ _ _ hc
    · unfold lkStep
      rw [if_neg h]
      exact ⟨by simp, by intro mem' h'; simp only [Except.ok.injEq] at h'; rw [← h']; exact hP⟩
  have hin : ∀ l, l < L → ∀ (ks : List Nat), (∀ k ∈ ks, k < Kk) → ∀ mem, P mem → Good (ks.foldlM (lkStep M l) mem) := by
    intro l hl ks
    induction ks with
    | nil =>
      intro _ mem hP
      exact ⟨by simp [pure, Except.pure], by intro m' h'; simp only [List.foldlM_nil, pure, Except.pure, Except.ok.injEq] at h'; rw [← h']; exact hP⟩
    | cons k ks ih =>
      intro hks mem hP
      rw [List.foldlM_cons]
      have h1 := hs l mem k hl (hks k (by simp)) hP
      cases hk : lkStep M l mem k with
      | error e =>
        rw [hk] at h1
        exact ⟨h1.1, by intro m' h'; cases h'⟩
      | ok mem' => exact ih (fun k hk => hks k (by simp [hk])) mem' (h1.2 mem' hk)
  have hout : ∀ (ls : List Nat), (∀ l ∈ ls, l < L) → ∀ mem, P mem →
      Good (ls.foldlM (fun mem l => (List.range Kk).foldlM (lkStep M l) mem) mem) := by
    intro ls
    induction ls with
    | nil =>
      intro _ mem hP
      exact ⟨by simp [pure, Except.pure], by intro m' h'; simp only [List.foldlM_nil, pure, Except.pure, Except.ok.injEq] at h'; rw [← h']; exact hP⟩
    | cons l ls ih =>
      intro hls mem hP
      rw [List.foldlM_cons]
      have h1 := hin l (hls l (by simp)) (List.range Kk) (fun k hk => by simpa using hk) mem hP
      cases hk : (List.range Kk).foldlM (lkStep M l) mem with
      | error e =>
        rw [hk] at h1
        exact ⟨h1.1, by intro m' h'; cases h'⟩
      | ok mem' => exact ih (fun l hl => hls l (by simp [hl])) mem' (h1.2 mem' hk)
  refine (hout (List.range L) (fun l hl => by simpa using hl) _ ?_).1
  intro l k c hc
  unfold Mem.set at hc
  split_ifs at hc with hh
  simp only [Option.some.injEq] at hc
  rw [← hc, hh.1, hh.2]; exact h0

/-- A path that solves the slack system before and the binding system during the spell `(l,k)`, and follows the linear law afterwards. -/
structure PathOf (M : Sys q p K) (omg : Matrix p q K) (lam : Matrix q q K) (l k : Nat) (Q : Nat → q → K) (P : Nat → p → K) : Prop where
  slack : ∀ s < l, M.S *ᵥ Sum.elim (Q (s+1)) (P (s+1)) = M.T *ᵥ Sum.elim (Q s) (P s)
  bind : ∀ s, l ≤ s → s < l + k → M.V *ᵥ Sum.elim (Q (s+1)) (P (s+1)) = M.W *ᵥ Sum.elim (Q s) (P s) + M.h
  linear : ∀ s, l + k ≤ s → P s = omg *ᵥ Q s ∧ Q (s+1) = lam *ᵥ Q s

/-- From every start there is exactly one such path. -/
structure OneOf (M : Sys q p K) (omg : Matrix p q K) (lam : Matrix q q K) (l k : Nat) : Prop where
  some : ∀ q0, ∃ Q P, PathOf M omg lam l k Q P ∧ Q 0 = q0
  unique : ∀ Q P Q' P', PathOf M omg lam l k Q P → PathOf M omg lam l k Q' P' → Q 0 = Q' 0 → Q = Q' ∧ P = P'

variable {M M' : Sys q p K} {f : Fun3 q p K} {omg : Matrix p q K} {lam : Matrix q q K} {lMax kMax : Nat}
  {t : Tables q p K} {c : Nat → Nat → Cell q p K}

/-- One period in regime `l`, as in `stepCell`. -/
theorem PathOf.first {l k : Nat} {Q : Nat → q → K} {P : Nat → p → K} (h : PathOf M omg lam l k Q P) (hlk : k ≠ 0 ∨ l ≠ 0) :
    lhsMat M l *ᵥ Sum.elim (Q 1) (P 1) = rhsMat M l *ᵥ Sum.elim (Q 0) (P 0) + rhsVec M l := by
  by_cases hl : l ≠ 0
  · have := h.slack 0 (by omega)
    simpa [lhsMat, rhsMat, rhsVec, hl] using this
  · have := h.bind 0 (by omega) (by omega)
    have hl' : l = 0 := by omega
    simpa [lhsMat, rhsMat, rhsVec, hl'] using this

theorem PathOf.tail {l k : Nat} {Q : Nat → q → K} {P : Nat → p → K} (h : PathOf M omg lam l k Q P) (hlk : k ≠ 0 ∨ l ≠ 0) :
    PathOf M omg lam (lastIdx l k).1 (lastIdx l k).2 (fun s => Q (s+1)) (fun s => P (s+1)) := by
  by_cases hl : l = 0
  · subst hl
    rw [lastIdx_zero]
    exact ⟨fun s hs => by omega, fun s _ hs => h.bind (s+1) (by omega) (by dsimp only at hs; omega),
      fun s hs => h.linear (s+1) (by dsimp only at hs; omega)⟩
  · rw [lastIdx_pos hl]
    exact ⟨fun s hs => h.slack (s+1) (by dsimp only at hs; omega), fun s h1 hs => h.bind (s+1) (by dsimp only at h1; omega) (by dsimp only at hs; omega),
      fun s hs => h.linear (s+1) (by dsimp only at hs; omega)⟩

/-- Put a period in front. -/
def consP {α : Type} (a : α) (F : Nat → α) : Nat → α
  | 0 => a
  | s + 1 => F s

theorem PathOf.cons {l k : Nat} {Q : Nat → q → K} {P : Nat → p → K} (hlk : k ≠ 0 ∨ l ≠ 0)
    (h : PathOf M omg lam (lastIdx l k).1 (lastIdx l k).2 Q P) (q0 : q → K) (p0 : p → K)
    (h0 : lhsMat M l *ᵥ Sum.elim (Q 0) (P 0) = rhsMat M l *ᵥ Sum.elim q0 p0 + rhsVec M l) :
    PathOf M omg lam l k (consP q0 Q) (consP p0 P) := by
  by_cases hl : l = 0
  · subst hl
    rw [lastIdx_zero] at h
    refine ⟨fun s hs => by omega, fun s _ hs => ?_, fun s hs => ?_⟩
    · cases s with
      | zero => simpa [lhsMat, rhsMat, rhsVec, consP] using h0
      | succ s => exact h.bind s (by omega) (by dsimp only; omega)
    · cases s with
      | zero => omega
      | succ s => exact h.linear s (by dsimp only; omega)
  · rw [lastIdx_pos hl] at h
    refine ⟨fun s hs => ?_, fun s h1 hs => ?_, fun s hs => ?_⟩
    · cases s with
      | zero => simpa [lhsMat, rhsMat, rhsVec, consP, hl] using h0
      | succ s => exact h.slack s (by dsimp only; omega)
    · cases s with
      | zero => omega
      | succ s => exact h.bind s (by dsimp only; omega) (by dsimp only; omega)
    · cases s with
      | zero => omega
      | succ s => exact h.linear s (by dsimp only; omega)

theorem stepCell_of_det {l : Nat} {c : Cell q p K} (h : ((lhsMat M l).toBlocks₁₁ + (lhsMat M l).toBlocks₁₂ * c.pmat).det ≠ 0) :
    ∃ c', stepCell M l c = .ok c' := by
  unfold stepCell getLam
  dsimp only
  have hA : (if l ≠ 0 then M.S else M.V) = lhsMat M l := rfl
  rw [hA]
  unfold npInv
  rw [if_neg h]
  exact ⟨_, rfl⟩

/-- The law of the first period that all paths of a spell follow. -/
def Law (M : Sys q p K) (omg : Matrix p q K) (lam : Matrix q q K) (l k : Nat) (c : Cell q p K) : Prop :=
  ∀ Q P, PathOf M omg lam l k Q P → P 0 = c.pmat *ᵥ Q 0 + c.pterm

/-- If every start has exactly one path, the next step of the recursion does not meet a singular matrix. -/
theorem step_of_one {l k : Nat} (hlk : k ≠ 0 ∨ l ≠ 0) (h12 : (rhsMat M l).toBlocks₁₂ = 0) (h22 : (rhsMat M l).toBlocks₂₂ = 1)
    (h1 : OneOf M omg lam l k) (h2 : OneOf M omg lam (lastIdx l k).1 (lastIdx l k).2) {c : Cell q p K}
    (hc : Law M omg lam (lastIdx l k).1 (lastIdx l k).2 c) : ∃ c', stepCell M l c = .ok c' ∧ Law M omg lam l k c' := by
  have hdet : ((lhsMat M l).toBlocks₁₁ + (lhsMat M l).toBlocks₁₂ * c.pmat).det ≠ 0 := by
    intro hd
    obtain ⟨v, hv, hv0⟩ := (exists_mulVec_eq_zero_iff (M := (lhsMat M l).toBlocks₁₁ + (lhsMat M l).toBlocks₁₂ * c.pmat)).2 hd
    obtain ⟨Q, P, hP, -⟩ := h1.some 0
    obtain ⟨Q', P', hP', hQ'⟩ := h2.some (Q 1 + v)
    have e1 := hc _ _ (hP.tail hlk)
    have e2 := hc _ _ hP'
    simp only [zero_add] at e1
    have hnew := hP'.cons hlk (Q 0) (P 0 + ((lhsMat M l).toBlocks₂₁ + (lhsMat M l).toBlocks₂₂ * c.pmat) *ᵥ v) (by
      have hf := hP.first hlk
      rw [e1] at hf
      rw [e2, hQ']
      have s1 : Sum.elim (Q 1 + v) (c.pmat *ᵥ (Q 1 + v) + c.pterm) = Sum.elim (Q 1) (c.pmat *ᵥ Q 1 + c.pterm) + Sum.elim v (c.pmat *ᵥ v) := by
        funext i; cases i <;> simp [mulVec_add]; ring
      have s2 : Sum.elim (Q 0) (P 0 + ((lhsMat M l).toBlocks₂₁ + (lhsMat M l).toBlocks₂₂ * c.pmat) *ᵥ v) =
          Sum.elim (Q 0) (P 0) + Sum.elim (0 : q → K) (((lhsMat M l).toBlocks₂₁ + (lhsMat M l).toBlocks₂₂ * c.pmat) *ᵥ v) := by
        funext i; cases i <;> simp
      rw [s1, s2, mulVec_add, mulVec_add, hf, mulVec_elim _ v, mulVec_elim _ 0, h12, h22]
      rw [add_mulVec, ← mulVec_mulVec] at hv0
      rw [hv0, add_mulVec, ← mulVec_mulVec]
      simp only [mulVec_zero, zero_mulVec, one_mulVec, add_zero, zero_add]
      abel)
    have := (h1.unique _ _ _ _ hP hnew rfl).1
    have h1' := congrFun this 1
    simp only [consP, hQ'] at h1'
    exact hv (by simpa using h1')
  obtain ⟨c', hc'⟩ := stepCell_of_det (M := M) hdet
  refine ⟨c', hc', fun Q P hP => ?_⟩
  have e1 := hc _ _ (hP.tail hlk)
  exact (stepCell_unique hc' h12 h22 (Q 0) (Q 1) (P 0) (P 1) (by simpa using e1) (hP.first hlk)).2

theorem pathOf_normalise (hn : normalise M = .ok M') {l k : Nat} {Q : Nat → q → K} {P : Nat → p → K} :
    PathOf M' omg lam l k Q P ↔ PathOf M omg lam l k Q P := by
  obtain ⟨n1, n2, -⟩ := normalise_ok hn
  exact ⟨fun h => ⟨fun s hs => (n1 _ _).1 (h.slack s hs), fun s h1 hs => (n2 _ _).1 (h.bind s h1 hs), h.linear⟩,
    fun h => ⟨fun s hs => (n1 _ _).2 (h.slack s hs), fun s h1 hs => (n2 _ _).2 (h.bind s h1 hs), h.linear⟩⟩

theorem OneOf.normalise (hn : Engine.normalise M = .ok M') {l k : Nat} (h : OneOf M omg lam l k) : OneOf M' omg lam l k := by
  refine ⟨fun q0 => ?_, fun Q P Q' P' h1 h2 => h.unique Q P Q' P' ((pathOf_normalise hn).1 h1) ((pathOf_normalise hn).1 h2)⟩
  obtain ⟨Q, P, hP, h0⟩ := h.some q0
  exact ⟨Q, P, (pathOf_normalise hn).2 hP, h0⟩

theorem normalise_iff : (∃ M', normalise M = .ok M') ↔ M.T.toBlocks₂₂.det ≠ 0 ∧ M.W.toBlocks₂₂.det ≠ 0 := by
  unfold normalise npInv
  by_cases h1 : M.T.toBlocks₂₂.det = 0
  · simp [h1]
  · by_cases h2 : M.W.toBlocks₂₂.det = 0
    · simp [h1, h2]
    · simp [h1, h2]

/-- The paths of the tables. -/
theorem Solved.oneOf (hS : Solved M M' f omg lam lMax kMax t c) (hT : M.T.toBlocks₁₂ = 0) (hW : M.W.toBlocks₁₂ = 0) (hk : KleinOK M omg lam)
    {l k : Nat} (hl : l ≤ lMax) (hkk : k ≤ kMax) : OneOf M omg lam l k := by
  refine ⟨fun q0 => ⟨qPath c l k q0, pPath c l k q0, ⟨fun s hs => path_slack hS hT hk hl hkk q0 s (.inl hs),
    fun s h1 hs => path_binding hS hW hkk q0 s h1 hs, fun s hs => ?_⟩, rfl⟩, fun Q P Q' P' h h' h0 => ?_⟩
  · have hend : locCell c l k s = ⟨omg, 0, lam, 0⟩ := by
      rw [← hS.complete.start]
      unfold locCell lLoc kLoc
      congr 1 <;> omega
    constructor
    · unfold pPath; rw [hend]; simp
    · show (locCell c l k s).qmat *ᵥ _ + (locCell c l k s).qterm = _
      rw [hend]; simp
  · obtain ⟨a, b⟩ := path_unique hS hT hW hl hkk Q P h.slack h.bind h.linear
    obtain ⟨a', b'⟩ := path_unique hS hT hW hl hkk Q' P' h'.slack h'.bind h'.linear
    exact ⟨funext fun s => by rw [a, a', h0], funext fun s => by rw [b, b', h0]⟩

/-- Preprocessing succeeds exactly if the controls are determined in both regimes and every spell has exactly one path. -/
theorem preprocess_iff (hT : M.T.toBlocks₁₂ = 0) (hW : M.W.toBlocks₁₂ = 0) (hk : KleinOK M omg lam) {sched : Nat → List Nat}
    (hs : ∀ l < lMax + 1, (sched l).Perm (List.range (kMax + 1))) :
    (∃ t, preprocess M f omg lam lMax kMax sched = .ok t) ↔
      M.T.toBlocks₂₂.det ≠ 0 ∧ M.W.toBlocks₂₂.det ≠ 0 ∧ ∀ l ≤ lMax, ∀ k ≤ kMax, OneOf M omg lam l k := by
  constructor
  · rintro ⟨t, ht⟩
    obtain ⟨M', c, hS⟩ := preprocess_ok hs ht
    obtain ⟨h1, h2⟩ := normalise_iff.1 ⟨M', hS.norm⟩
    exact ⟨h1, h2, fun l hl k hkk => hS.oneOf hT hW hk hl hkk⟩
  · rintro ⟨h1, h2, h3⟩
    obtain ⟨M', hn⟩ := normalise_iff.2 ⟨h1, h2⟩
    rcases preprocess_spec M f omg lam lMax kMax sched hs with ⟨_, t, _, h, _⟩ | h
    · exact ⟨t, h⟩
    · exfalso
      unfold preprocess at h
      dsimp only at h
      rw [hn] at h
      dsimp only at h
      rcases lkLoop_spec M' omg lam (lMax + 1) (kMax + 1) (by omega) (by omega) with ⟨mem, c, h1, h2⟩ | hL
      · rw [h1] at h
        dsimp only at h
        rw [bLoop_spec f mem c (lMax + 1) (kMax + 1) h2.filled sched hs] at h
        cases h
      · obtain ⟨-, -, n3, n4, n5, n6⟩ := normalise_ok hn
        refine lkLoop_succeeds (lMax + 1) (kMax + 1) (Law M' omg lam) ?_ ?_ hL
        · intro Q P hP
          have := (hP.linear 0 (by omega)).1
          simpa using this
        · intro l k c hl hk hlk hc
          refine step_of_one hlk ?_ ?_ ((h3 l (by omega) k (by omega)).normalise hn) ((h3 _ ?_ _ ?_).normalise hn) hc
          · unfold rhsMat; split_ifs
            · rw [n5, hT]
            · rw [n6, hW]
          · unfold rhsMat; split_ifs
            · exact n3
            · exact n4
          · unfold lastIdx; dsimp only; omega
          · unfold lastIdx; dsimp only; split_ifs <;> omega

/-- With at least one slack and one binding period in the tables, the controls are determined if the paths are. -/
theorem det_of_one (hT : M.T.toBlocks₁₂ = 0) (hW : M.W.toBlocks₁₂ = 0) (h1 : OneOf M omg lam 1 0) (h2 : OneOf M omg lam 0 1) :
    M.T.toBlocks₂₂.det ≠ 0 ∧ M.W.toBlocks₂₂.det ≠ 0 := by
  have key : ∀ l k, (k ≠ 0 ∨ l ≠ 0) → (rhsMat M l).toBlocks₁₂ = 0 → OneOf M omg lam l k → (rhsMat M l).toBlocks₂₂.det ≠ 0 := by
    intro l k hlk h12 h hd
    obtain ⟨v, hv, hv0⟩ := (exists_mulVec_eq_zero_iff (M := (rhsMat M l).toBlocks₂₂)).2 hd
    obtain ⟨Q, P, hP, -⟩ := h.some 0
    have hnew := (hP.tail hlk).cons hlk (Q 0) (P 0 + v) (by
      have s2 : Sum.elim (Q 0) (P 0 + v) = Sum.elim (Q 0) (P 0) + Sum.elim (0 : q → K) v := by funext i; cases i <;> simp
      have hf := hP.first hlk
      simp only [zero_add]
      rw [hf, s2, mulVec_add, mulVec_elim _ 0 v, h12, hv0]
      simp)
    have := congrFun (h.unique _ _ _ _ hP hnew rfl).2 0
    simp only [consP] at this
    exact hv (by simpa using this)
  exact ⟨by simpa [rhsMat] using key 1 0 (by simp) (by simpa [rhsMat] using hT) h1,
    by simpa [rhsMat] using key 0 1 (by simp) (by simpa [rhsMat] using hW) h2⟩

/-- Paths on which the constraint never binds are the linear ones. -/
theorem oneOf_slack (hT : M.T.toBlocks₁₂ = 0) (hk : KleinOK M omg lam) (h1 : M.T.toBlocks₂₂.det ≠ 0)
    (h2 : (M.S.toBlocks₁₁ + M.S.toBlocks₁₂ * omg).det ≠ 0) (l : Nat) : OneOf M omg lam l 0 := by
  have inj : ∀ {n : Type} [Fintype n] [DecidableEq n] {A : Matrix n n K}, A.det ≠ 0 → ∀ v, A *ᵥ v = 0 → v = 0 := by
    intro n _ _ A hA v hv
    by_contra hv0
    exact hA ((exists_mulVec_eq_zero_iff (M := A)).1 ⟨v, hv0, hv⟩)
  have lin : ∀ Q P, PathOf M omg lam l 0 Q P → ∀ n s, l ≤ s + n → P s = omg *ᵥ Q s ∧ Q (s+1) = lam *ᵥ Q s := by
    intro Q P hP n
    induction n with
    | zero => intro s hs; exact hP.linear s (by omega)
    | succ n ih =>
      intro s hs
      by_cases hle : l ≤ s + n
      · exact ih s hle
      have hn := (ih (s+1) (by omega)).1
      have e1 := hP.slack s (by omega)
      have e2 := hk (Q s)
      have e3 : M.S *ᵥ Sum.elim (Q (s+1) - lam *ᵥ Q s) (omg *ᵥ (Q (s+1) - lam *ᵥ Q s)) =
          M.T *ᵥ Sum.elim (0 : q → K) (P s - omg *ᵥ Q s) := by
        have a1 : Sum.elim (Q (s+1) - lam *ᵥ Q s) (omg *ᵥ (Q (s+1) - lam *ᵥ Q s)) =
            Sum.elim (Q (s+1)) (P (s+1)) - Sum.elim (lam *ᵥ Q s) (omg *ᵥ (lam *ᵥ Q s)) := by
          rw [hn, mulVec_sub]
          funext i; cases i <;> simp
        have a2 : Sum.elim (0 : q → K) (P s - omg *ᵥ Q s) = Sum.elim (Q s) (P s) - Sum.elim (Q s) (omg *ᵥ Q s) := by
          funext i; cases i <;> simp
        rw [a1, a2, mulVec_sub, mulVec_sub, e1, e2]
      rw [mulVec_elim, mulVec_elim, hT, sumElim_eq_iff] at e3
      obtain ⟨b1, b2⟩ := e3
      have c1 : Q (s+1) - lam *ᵥ Q s = 0 := by
        apply inj h2
        rw [add_mulVec, ← mulVec_mulVec]
        simpa using b1
      have c2 : P s - omg *ᵥ Q s = 0 := by
        apply inj h1
        rw [c1] at b2
        simpa using b2.symm
      exact ⟨sub_eq_zero.1 c2, sub_eq_zero.1 c1⟩
  refine ⟨fun q0 => ?_, fun Q P Q' P' h h' h0 => ?_⟩
  · let Q : Nat → q → K := fun s => Nat.rec q0 (fun _ v => lam *ᵥ v) s
    exact ⟨Q, fun s => omg *ᵥ Q s, ⟨fun s _ => hk (Q s), fun s a b => by omega, fun s _ => ⟨rfl, rfl⟩⟩, rfl⟩
  · have e : ∀ s, Q s = Q' s := by
      intro s
      induction s with
      | zero => exact h0
      | succ s ih => rw [(lin Q P h l s (by omega)).2, (lin Q' P' h' l s (by omega)).2, ih]
    refine ⟨funext e, funext fun s => ?_⟩
    rw [(lin Q P h l s (by omega)).1, (lin Q' P' h' l s (by omega)).1, e s]

end Pydsge.Engine
