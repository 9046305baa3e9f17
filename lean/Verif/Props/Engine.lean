import Verif.Props.Solution
import Verif.Lemmas.SearchBounds
import Verif.Examples.Ex1Run

/-!
# C04, C05, C06, C07, C08, C10, C11: preprocessing and the search for `(l,k)`
-/

set_option autoImplicit false
set_option linter.unusedSectionVars false

namespace Pydsge

open Matrix Pydsge.Engine Pydsge.Spec Pydsge.Tools Pydsge.GenSys

section Tables
variable {q p K : Type} [Fintype q] [Fintype p] [DecidableEq q] [DecidableEq p] [Field K] [LinearOrder K]
  [IsStrictOrderedRing K]

/-- Value of the constraint expression in period `s` of a path `(Q, P)` (engine.py:119-120, gensys.py:377-379). -/
def cnstValue (f : Fun3 q p K) (Q : Nat → q → K) (P : Nat → p → K) (s : Nat) : K :=
  f.fp1 ⬝ᵥ P s + f.fq1 ⬝ᵥ Q (s + 1) + f.fq0 ⬝ᵥ Q s

/-- The period whose constraint value slot `i` is supposed to hold: `0`, `l-1`, `l`, `l+k-1`, `l+k`. -/
def period (l k : Nat) : Fin 5 → Nat
  | 0 => 0
  | 1 => l - 1
  | 2 => l
  | 3 => l + k - 1
  | 4 => l + k

/-- `v i l k` is the value of the constraint expression in the period of slot `i` when the path from `q0` is simulated step
by step under the spell `(l,k)`, for all `(l,k)` up to `(lMax,kMax)`. -/
def Describes (t : Tables q p K) (f : Fun3 q p K) (xbar : K) (q0 : q → K) (lMax kMax : Nat) (v : Fin 5 → Nat → Nat → K) : Prop :=
  ∀ i l k Q P, l ≤ lMax → k ≤ kMax → SpellPath t xbar l k Q P → Q 0 = q0 → v i l k = cnstValue f Q P (period l k i)

variable {M M' : Sys q p K} {f : Fun3 q p K} {omg : Matrix p q K} {lam : Matrix q q K} {lMax kMax : Nat} {t : Tables q p K}
  {c : Nat → Nat → Cell q p K}

theorem period_eq (l k : Nat) (i : Fin 5) : period l k i = slotPeriod l k i := by fin_cases i <;> rfl

theorem describes_iff (hS : Solved M M' f omg lam lMax kMax t c) (xbar : K) (q0 : q → K) (v : Fin 5 → Nat → Nat → K) :
    Describes t f xbar q0 lMax kMax v ↔ ∀ i l k, l ≤ lMax → k ≤ kMax → v i l k = pathValue f c q0 l k (slotPeriod l k i) := by
  constructor
  · intro h i l k hl hk
    rw [h i l k _ _ hl hk (spellPath_exists hS xbar hl hk q0) rfl, period_eq]
    rfl
  · intro h i l k Q P hl hk hQP h0
    obtain ⟨hQ, hP⟩ := (spellPath_iff hS xbar hl hk Q P).1 hQP
    rw [h i l k hl hk, period_eq]
    unfold pathValue cnstValue
    rw [hP, hQ (_ + 1), hQ (slotPeriod l k i), h0]

/-- The step-by-step simulation under a spell inside the tables always exists, so `Describes` determines `v`. -/
theorem describes_exists (hS : Solved M M' f omg lam lMax kMax t c) (xbar : K) (q0 : q → K) :
    ∃ v, Describes t f xbar q0 lMax kMax v :=
  ⟨_, (describes_iff hS xbar q0 _).2 (fun _ _ _ _ _ => rfl)⟩

theorem describes_reads (hS : Solved M M' f omg lam lMax kMax t c) {xbar : K} {q0 : q → K} {v : Fin 5 → Nat → Nat → K}
    (hv : Describes t f xbar q0 lMax kMax v) : Reads (checkCnst t q0) v (lMax + 1) (kMax + 1) := by
  intro i l k hl hk h1 h3
  rw [checkCnst_reads hS q0 i l k hl hk h1 h3, (describes_iff hS xbar q0 v).1 hv i l k (by omega) (by omega)]

variable {sched : Nat → List Nat}

/-- **C11**: every precomputed constraint coefficient gives, for every state, the value the constraint expression takes in its
period when the path is simulated step by step under `(l,k)`: the five slots of `bmat, bterm` (slots 1 and 3 belong to
periods `l-1` and `l+k-1` and exist only if these are not negative) ... -/
theorem C11_slots_equal_simulation (hs : ∀ l < lMax + 1, (sched l).Perm (List.range (kMax + 1)))
    (hp : preprocess M f omg lam lMax kMax sched = .ok t) (xbar : K) (q0 : q → K) (i : Fin 5) {l k : Nat}
    (hl : l ≤ lMax) (hk : k ≤ kMax) (h1 : i = 1 → 1 ≤ l) (h3 : i = 3 → 1 ≤ l + k) :
    (∃ Q P, SpellPath t xbar l k Q P ∧ Q 0 = q0) ∧
    ∀ Q P, SpellPath t xbar l k Q P → Q 0 = q0 → checkCnst t q0 i l k = .ok (cnstValue f Q P (period l k i)) := by
  obtain ⟨M', c, hS⟩ := preprocess_ok hs hp
  refine ⟨⟨_, _, spellPath_exists hS xbar hl hk q0, rfl⟩, ?_⟩
  intro Q P hQP h0
  obtain ⟨v, hv⟩ := describes_exists hS xbar q0
  rw [describes_reads hS hv i l k (by omega) (by omega) h1 h3, hv i l k Q P hl hk hQP h0]

/-- ... and the trajectory tables `tmat, tterm` for every period `s < l_max + k_max + 2`. -/
theorem C11_tmat_equals_simulation (hs : ∀ l < lMax + 1, (sched l).Perm (List.range (kMax + 1)))
    (hp : preprocess M f omg lam lMax kMax sched = .ok t) {sched' : Nat → List Nat}
    (hs' : ∀ l < lMax + 1, (sched' l).Perm (List.range (kMax + 1))) (xbar : K) {l k s : Nat} (hl : l ≤ lMax) (hk : k ≤ kMax)
    (hsr : s < (lMax + 1) + (kMax + 1)) :
    ∃ tm row, tLoop f t.pq t.L t.Kk sched' = .ok tm ∧ tm l k s = some row ∧
      ∀ Q P, SpellPath t xbar l k Q P → row.1 ⬝ᵥ Q 0 + row.2 = cnstValue f Q P s := by
  obtain ⟨M', c, hS⟩ := preprocess_ok hs hp
  rw [hS.shapeL, hS.shapeK]
  refine ⟨_, rowAt f c l k s, tLoop_spec f t.pq c _ _ hS.complete.filled sched' hs', ?_, ?_⟩
  · rw [if_pos ⟨by omega, by omega⟩, if_pos hsr]
  · intro Q P hQP
    obtain ⟨hQ, hP⟩ := (spellPath_iff hS xbar hl hk Q P).1 hQP
    rw [rowAt_value]
    unfold cnstValue
    rw [hP s, hQ (s+1), hQ s]

/-- **C07**: preprocessing gives the same result (tables or error) for every order of the parallel iterations. -/
theorem C07_parallel_equals_serial (M : Sys q p K) (f : Fun3 q p K) (omg : Matrix p q K) (lam : Matrix q q K) (lMax kMax : Nat)
    (sched : Nat → List Nat) (hs : ∀ l < lMax + 1, (sched l).Perm (List.range (kMax + 1))) :
    preprocess M f omg lam lMax kMax sched = preprocess M f omg lam lMax kMax (serial kMax) := by
  unfold preprocess
  dsimp only
  cases normalise M with
  | error e => rfl
  | ok M' =>
    dsimp only
    rcases lkLoop_spec M' omg lam (lMax + 1) (kMax + 1) (by omega) (by omega) with ⟨mem, c, h1, h2⟩ | h1
    · rw [h1]
      dsimp only
      rw [bLoop_spec f mem c _ _ h2.filled sched hs, bLoop_spec f mem c _ _ h2.filled (serial kMax) (fun _ _ => List.Perm.refl _)]
    · rw [h1]

/-- **C07** for the trajectory tables (always computed in parallel, engine.py:150). -/
theorem C07_tmats_parallel_equals_serial (hs : ∀ l < lMax + 1, (sched l).Perm (List.range (kMax + 1)))
    (hp : preprocess M f omg lam lMax kMax sched = .ok t) (sched' : Nat → List Nat)
    (hs' : ∀ l < lMax + 1, (sched' l).Perm (List.range (kMax + 1))) :
    tLoop f t.pq t.L t.Kk sched' = tLoop f t.pq t.L t.Kk (serial kMax) := by
  obtain ⟨M', c, hS⟩ := preprocess_ok hs hp
  rw [hS.shapeL, hS.shapeK, tLoop_spec f t.pq c _ _ hS.complete.filled sched' hs',
    tLoop_spec f t.pq c _ _ hS.complete.filled (serial kMax) (fun _ _ => List.Perm.refl _)]

/-- A search in tables with a single column `k = 0` in which the constraint is not slack everywhere. -/
theorem findLk_one_column {rd : Reader K} {v : Fin 5 → Nat → Nat → K} {xbar : K} {L : Nat} (hr : Reads rd v L 1) (hL : 0 < L) :
    (NeverBinds v xbar L → findLk rd xbar L 1 = .ok (0, 0, 0)) ∧ (¬ NeverBinds v xbar L → findLk rd xbar L 1 = .error .oob) := by
  unfold findLk
  rcases slackLoop_spec (xbar := xbar) hr (by omega) 0 hL with ⟨h1, h2⟩ | ⟨⟨j, h1⟩, j', h2, h3⟩
  · rw [h2]
    simp only [lt_self_iff_false, if_false]
    exact ⟨fun _ => trivial, fun h => absurd (fun j hj => h1 j (by omega) hj) h⟩
  · have hn : ¬ NeverBinds v xbar L := fun h => absurd (h j h1.2.1) (not_lt.2 h1.2.2)
    refine ⟨fun h => absurd h hn, fun _ => ?_⟩
    rw [h3]
    simp only [h2, if_true, bruiteWrapper]
    rcases bruiteL_spec (xbar := xbar) hr 0 with ⟨g1, g2⟩ | ⟨l0, k0, g1, g2, g3, g4, g5, g6⟩
    · rw [g2]
      simp only [if_true]
      rw [approxLoop, if_neg (by omega)]
    · have := g4.binds; omega

/-- **C06**: no cell is read before it was written: preprocessing (in any order of the parallel iterations), the trajectory
tables and the transition (with a search or with an imposed spell) never meet an uninitialised cell. -/
theorem C06_no_uninitialised_cell (M : Sys q p K) (f : Fun3 q p K) (omg : Matrix p q K) (lam : Matrix q q K) (lMax kMax : Nat)
    (sched : Nat → List Nat) (hs : ∀ l < lMax + 1, (sched l).Perm (List.range (kMax + 1))) :
    preprocess M f omg lam lMax kMax sched ≠ .error .uninit ∧
    ∀ t, preprocess M f omg lam lMax kMax sched = .ok t →
      (∀ sched', (∀ l < lMax + 1, (sched' l).Perm (List.range (kMax + 1))) → tLoop f t.pq t.L t.Kk sched' ≠ .error .uninit) ∧
      ∀ xbar s setLK, tFuncJit t xbar s setLK ≠ .error .uninit := by
  constructor
  · rcases preprocess_spec M f omg lam lMax kMax sched hs with ⟨_, t, _, h, _⟩ | h <;> rw [h] <;> simp
  · intro t hp
    obtain ⟨M', c, hS⟩ := preprocess_ok hs hp
    constructor
    · intro sched' hs'
      rw [hS.shapeL, hS.shapeK, tLoop_spec f t.pq c _ _ hS.complete.filled sched' hs']
      simp
    · intro xbar s setLK
      have hfind : ∀ r, findLk (checkCnst t s) xbar t.L t.Kk = r → (r ≠ .error .uninit) ∧
          ∀ l k fl, r = .ok (l, k, fl) → t.pq l k ≠ none := by
        intro r hr
        rw [hS.shapeL, hS.shapeK] at hr
        rcases Nat.eq_zero_or_pos kMax with h0 | h0
        · subst h0
          have hrd := checkCnst_reads hS s
          obtain ⟨a, b⟩ := findLk_one_column (xbar := xbar) hrd (by omega)
          by_cases hnb : NeverBinds (fun i l k => pathValue f c s l k (slotPeriod l k i)) xbar (lMax + 1)
          · rw [a hnb] at hr
            subst hr
            refine ⟨by simp, fun l k fl h => ?_⟩
            simp only [Except.ok.injEq, Prod.mk.injEq] at h
            rw [← h.1, ← h.2.1, hS.complete.filled 0 0 (by omega) (by omega)]
            simp
          · rw [b hnb] at hr
            subst hr
            exact ⟨by simp, by simp⟩
        · obtain ⟨l, k, fl, h1, h2, h3, _⟩ := findLk_cases (xbar := xbar) (checkCnst_reads hS s) (by omega) (by omega)
          rw [h1] at hr
          subst hr
          refine ⟨by simp, fun l' k' fl' h => ?_⟩
          simp only [Except.ok.injEq, Prod.mk.injEq] at h
          rw [← h.1, ← h.2.1, hS.complete.filled l k (by omega) (by omega)]
          simp
      have hidx : ∀ n i r, pyIdx n i = r → r ≠ .error .uninit ∧ ∀ j, r = .ok j → j < n := by
        intro n i r h
        unfold pyIdx at h
        split_ifs at h <;> subst h
        · refine ⟨by simp, fun j hj => ?_⟩
          simp only [Except.ok.injEq] at hj; omega
        · refine ⟨by simp, fun j hj => ?_⟩
          simp only [Except.ok.injEq] at hj; omega
        · exact ⟨by simp, by simp⟩
      have hfin : ∀ r : Except PyErr (Nat × Nat × Nat), (r ≠ .error .uninit ∧ ∀ l k fl, r = .ok (l, k, fl) → t.pq l k ≠ none) →
          (match r with
            | .error e => (Except.error e : Except PyErr (TRes q p K))
            | .ok (l, k, flag) =>
              match t.pq l k with
              | none => .error .uninit
              | some c => .ok ⟨c.pmat *ᵥ s + c.pterm, c.qmat *ᵥ s + c.qterm, l, k, flag⟩) ≠
            .error .uninit := by
        rintro (e | ⟨l, k, fl⟩) ⟨h1, h2⟩
        · simpa using h1
        · have := h2 l k fl rfl
          dsimp only
          cases hpq : t.pq l k with
          | none => exact absurd hpq this
          | some c => simp
      unfold tFuncJit
      dsimp only
      apply hfin
      cases setLK with
      | none => exact hfind _ rfl
      | some lk =>
        obtain ⟨sl, sk⟩ := lk
        dsimp only
        split_ifs
        · exact hfind _ rfl
        · obtain ⟨a1, a2⟩ := hidx t.L sl _ rfl
          obtain ⟨b1, b2⟩ := hidx t.Kk sk _ rfl
          cases hl : pyIdx t.L sl with
          | error e => rw [hl] at a1; exact ⟨by simpa using a1, by simp⟩
          | ok l =>
            dsimp only
            cases hk : pyIdx t.Kk sk with
            | error e => rw [hk] at b1; exact ⟨by simpa using b1, by simp⟩
            | ok k =>
              refine ⟨by simp, fun l' k' fl' h => ?_⟩
              simp only [Except.ok.injEq, Prod.mk.injEq] at h
              have h1 := a2 l hl
              have h2 := b2 k hk
              rw [hS.shapeL] at h1
              rw [hS.shapeK] at h2
              rw [← h.1, ← h.2.1, hS.complete.filled l k h1 h2]
              simp

/-- One more slack period in front of the linear solution changes nothing. -/
theorem stepCell_linear {M : Sys q p K} {omg : Matrix p q K} {lam : Matrix q q K} (h12 : M.T.toBlocks₁₂ = 0)
    (h22 : M.T.toBlocks₂₂ = 1) (hk : KleinOK M omg lam) {l : Nat} (hl : l ≠ 0) {c' : Cell q p K}
    (h : stepCell M l ⟨omg, 0, lam, 0⟩ = .ok c') : c' = ⟨omg, 0, lam, 0⟩ := by
  have hs : ∀ q0, (M.S.toBlocks₁₁ + M.S.toBlocks₁₂ * omg) *ᵥ (lam *ᵥ q0) = M.T.toBlocks₁₁ *ᵥ q0 ∧
      (M.S.toBlocks₂₁ + M.S.toBlocks₂₂ * omg) *ᵥ (lam *ᵥ q0) = M.T.toBlocks₂₁ *ᵥ q0 + omg *ᵥ q0 := by
    intro q0
    have := hk q0
    rw [mulVec_elim, mulVec_elim, h12, h22, zero_mulVec, add_zero, one_mulVec, sumElim_eq_iff] at this
    simp only [add_mulVec, ← mulVec_mulVec]
    exact this
  have h1 : (M.S.toBlocks₁₁ + M.S.toBlocks₁₂ * omg) * lam = M.T.toBlocks₁₁ := by
    apply Matrix.ext_of_mulVec_single
    intro i
    rw [← mulVec_mulVec]
    exact (hs _).1
  have h2 : (M.S.toBlocks₂₁ + M.S.toBlocks₂₂ * omg) * lam = M.T.toBlocks₂₁ + omg := by
    apply Matrix.ext_of_mulVec_single
    intro i
    rw [← mulVec_mulVec, add_mulVec (M.T.toBlocks₂₁)]
    exact (hs _).2
  unfold stepCell getLam at h
  simp only [ne_eq, hl, not_false_eq_true, if_true] at h
  cases hinv : npInv (M.S.toBlocks₁₁ + M.S.toBlocks₁₂ * omg) with
  | error e => rw [hinv] at h; cases h
  | ok inv =>
    rw [hinv] at h
    have hi := (npInv_ok hinv).2
    simp only [getOmg, ne_eq, hl, not_false_eq_true, if_true, Except.ok.injEq, mulVec_zero, sub_zero, add_zero] at h
    have hlam : inv * M.T.toBlocks₁₁ = lam := by rw [← h1, ← Matrix.mul_assoc, hi, Matrix.one_mul]
    rw [hlam, h2, add_sub_cancel_left] at h
    exact h.symm

theorem klein_normalised (hn : normalise M = .ok M') (hk : KleinOK M omg lam) : KleinOK M' omg lam := by
  intro q0
  exact ((normalise_ok hn).1 _ _).2 (hk q0)

/-- Every cell `(l,0)` is the linear solution. -/
theorem cells_l0 (hS : Solved M M' f omg lam lMax kMax t c) (hT : M.T.toBlocks₁₂ = 0) (hk : KleinOK M omg lam) {l : Nat}
    (hl : l ≤ lMax) : c l 0 = ⟨omg, 0, lam, 0⟩ := by
  obtain ⟨n1, n2, n3, n4, n5, n6⟩ := normalise_ok hS.norm
  induction l with
  | zero => exact hS.complete.start
  | succ l ih =>
    have hstep := hS.complete.step (l+1) 0 (by omega) (by omega) (by simp)
    rw [lastIdx_pos (by simp)] at hstep
    simp only [Nat.add_sub_cancel, ih (by omega)] at hstep
    exact stepCell_linear (n5.trans hT) n3 (klein_normalised hS.norm hk) (by simp) hstep

end Tables

section SearchOnly
variable {K : Type} [Field K] [LinearOrder K] [IsStrictOrderedRing K]

/-- **C05** on the level of the search: inside a table with at least two columns no out-of-bounds read happens, whatever the
table contains, and the result is determined by the cells of the table. -/
theorem C05_search_stays_inside_partial {rd : Reader K} {L Kk : Nat} (hL : 0 < L) (hK : 1 < Kk)
    (h : ∀ i l k, l < L → k < Kk → rd i l k ≠ .error .oob) (xbar : K) :
    findLk rd xbar L Kk ≠ .error .oob ∧
    ∀ rd', (∀ i l k, l < L → k < Kk → rd' i l k = rd i l k) → findLk rd' xbar L Kk = findLk rd xbar L Kk :=
  ⟨findLk_safe h hL hK xbar, fun _ h' => findLk_congr h' hL (by omega) xbar⟩

/-- **C64 (partial)**: for tables of any size, the search returns `(0,0)` if the constraint never binds, and otherwise the least consistent pair
if there is one, with flag 0. Missing: a least consistent pair in row 999. -/
theorem C64_other_rows_partial {rd : Reader K} {v : Fin 5 → Nat → Nat → K} {xbar : K} {L Kk : Nat} (hr : Reads rd v L Kk) (hL : 0 < L)
    (hK : 1 < Kk) : (NeverBinds v xbar L → findLk rd xbar L Kk = .ok (0, 0, 0)) ∧
    (¬ NeverBinds v xbar L → ∀ l k, LeastConsistent v xbar L Kk l k → l ≠ 999 → findLk rd xbar L Kk = .ok (l, k, 0)) := by
  unfold findLk
  rcases slackLoop_spec (xbar := xbar) hr (by omega) 0 hL with ⟨h1, h2⟩ | ⟨⟨j, h1⟩, j', h2, h3⟩
  · refine ⟨fun _ => ?_, fun hn => absurd (fun j hj => h1 j (by omega) hj) hn⟩
    rw [h2]
    simp
  · refine ⟨fun h => absurd (h j h1.2.1) (not_lt.2 h1.2.2), fun _ l k hlk h9 => ?_⟩
    rw [h3]
    simp only [h2, if_true, bruiteWrapper]
    obtain ⟨a1, a2, a3, a4⟩ := hlk
    rcases bruiteL_spec (xbar := xbar) hr 0 with ⟨g1, g2⟩ | ⟨l0, k0, g1, g2, g3, g4, g5, g6⟩
    · exact absurd a3 (g1 l k (by omega) a1 a2)
    · have e1 := a4 l0 k0 g2 g3 g4
      have e2 := g5 l k (by omega) a1 a2 a3
      have : l0 = l ∧ k0 = k := by
        unfold LexLt at e1 e2
        simp only at e1 e2
        omega
      obtain ⟨rfl, rfl⟩ := this
      rw [g6]
      simp only [h9, if_false]

/-- **C64**: the sentinel `999` of `bruite_wrapper` is also a row number: with 1000 rows there are constraint values for
which `(999, 1)` is the only (hence the least) consistent pair, but `find_lk` reports "no solution". -/
theorem C64_sentinel_clash_refuted : ∃ (v : Fin 5 → Nat → Nat → Rat) (xbar : Rat),
    ¬ NeverBinds v xbar 1000 ∧ LeastConsistent v xbar 1000 2 999 1 ∧
    ∀ rd, Reads rd v 1000 2 → ∃ k flag, findLk rd xbar 1000 2 = .ok (0, k, flag) ∧ flag ≠ 0 := by
  let v : Fin 5 → Nat → Nat → Rat := fun i l _ => if i = 4 ∧ l ≠ 999 then -1 else 0
  have hv4 : ∀ l k, l ≠ 999 → v 4 l k = -1 := by intro l k h; simp [v, h]
  have honly : ∀ l k, Consistent v 0 l k → l = 999 := by
    intro l k h
    by_contra hl
    have := h.exit
    rw [hv4 l k hl] at this
    norm_num at this
  have hc : Consistent v 0 999 1 := by
    refine ⟨le_rfl, fun _ => ?_, fun _ => ?_, ?_, ?_, fun h => by omega⟩ <;> simp [v]
  have hleast : LeastConsistent v 0 1000 2 999 1 := by
    refine ⟨by omega, by omega, hc, fun l' k' _ _ h hlt => ?_⟩
    have h1 := honly l' k' h
    have h2 := h.binds
    unfold LexLt at hlt
    simp only at hlt
    omega
  have hnb : ¬ NeverBinds v 0 1000 := fun h => by simpa [v] using h 0 (by omega)
  refine ⟨v, 0, hnb, hleast, fun rd hr => ?_⟩
  unfold findLk
  rcases slackLoop_spec (xbar := 0) hr (by omega) 0 (by omega) with ⟨h1, h2⟩ | ⟨_, j', h2, h3⟩
  · exact absurd (fun j hj => h1 j (by omega) hj) hnb
  · rw [h3]
    obtain ⟨k', f, a, b, c, d⟩ := approxLoop_spec (xbar := 0) hr (by omega) 0 (by omega) false
    have hf : f ≠ 0 := by rcases d with ⟨d, _⟩ | ⟨d, _⟩ <;> omega
    simp only [h2, if_true, bruiteWrapper]
    rcases bruiteL_spec (xbar := 0) hr 0 with ⟨g1, g2⟩ | ⟨l0, k0, g1, g2, g3, g4, g5, g6⟩
    · exact absurd hc (g1 999 1 (by omega) (by omega) (by omega))
    · rw [g6]
      have := honly l0 k0 g4
      subst this
      simp only [if_true]
      rw [c]
      exact ⟨k', f, rfl, hf⟩

end SearchOnly

section Model
variable {E ν ε o K : Type} [Fintype E] [Fintype ν] [Fintype ε] [Fintype o]
  [DecidableEq E] [DecidableEq ν] [DecidableEq ε] [Field K] [LinearOrder K] [IsStrictOrderedRing K]
variable {H z p : Type} [DecidableEq H] [Fintype H] [Fintype z] [Fintype p] [DecidableEq z] [DecidableEq p]
variable {tol : K} {m : Input E ν ε o K} [DecidablePred (inall tol m)] {lay : Layout tol m H z p}
  {orc : Oracle (Rows E H ε) (z ⊕ ε) p K} {lMax kMax : Nat} {sched : Nat → List Nat} {mod : Model z ε p o K}

/-- **C04**: the search behind `t_func`.  Let `v` be the values of the constraint expression on the paths from the given state
and shocks, simulated step by step under every spell (they exist and are unique).  Then `t_func` succeeds and
* returns `(0,0)`, flag 0 exactly if the unconstrained path stays strictly above the bound at every horizon covered;
* otherwise returns flag 0 exactly if some consistent pair exists, and then the lexicographically least one;
* otherwise returns `l = 0`, `0 < k`, and flag 1 (only if the path leaves the bound after `k` periods) or 2 (`k = k_max`).
Tables of 999 or fewer rows, see C64. -/
theorem C04_search_sound_complete_minimal (h : Succeeded lay orc lMax kMax sched mod) (hk1 : 1 ≤ kMax) (hL : lMax < 999)
    (st : p ⊕ z → K) (eps : ε → K) :
    ∃ v, Describes mod.tables mod.ff mod.xbar (q0Of st eps) lMax kMax v ∧
      ∃ r, tFunc mod st eps .none false = .ok r ∧ r.l ≤ lMax ∧ r.k ≤ kMax ∧
        ((r.l = 0 ∧ r.k = 0 ∧ r.flag = 0) ↔ NeverBinds v mod.xbar (lMax + 1)) ∧
        (¬ NeverBinds v mod.xbar (lMax + 1) →
          (r.flag = 0 ↔ ∃ l k, l ≤ lMax ∧ k ≤ kMax ∧ Consistent v mod.xbar l k) ∧
          (r.flag = 0 → LeastConsistent v mod.xbar (lMax + 1) (kMax + 1) r.l r.k) ∧
          (r.flag ≠ 0 → r.l = 0 ∧ 0 < r.k ∧ ((r.flag = 1 ∧ mod.xbar < v 4 0 r.k) ∨ (r.flag = 2 ∧ r.k = kMax)))) := by
  obtain ⟨c, hm⟩ := genSys_ok h.perm h.gen
  obtain ⟨M', hS⟩ := hm.eng
  have := h.states
  obtain ⟨v, hv⟩ := describes_exists hS mod.xbar (q0Of st eps)
  refine ⟨v, by rw [hm.ff]; exact hv, ?_⟩
  rcases findLk_spec (xbar := mod.xbar) (describes_reads hS hv) (by omega) (by omega) (by omega) with
    ⟨a, b⟩ | ⟨a, l, k, b, e⟩ | ⟨a, b, k, flag, e1, e2, e3, e4⟩
  · refine ⟨_, tFunc_find hm st eps b (by omega) (by omega), by simp, by simp, by simpa using a, fun hn => absurd a hn⟩
  · have hl : l ≤ lMax := by have := b.1; omega
    have hk : k ≤ kMax := by have := b.2.1; omega
    refine ⟨_, tFunc_find hm st eps e hl hk, hl, hk, ?_, fun _ => ⟨?_, fun _ => b, fun hn => absurd rfl hn⟩⟩
    · have := b.2.2.1.binds
      simp only
      exact ⟨fun h => by omega, fun h => absurd h a⟩
    · exact ⟨fun _ => ⟨l, k, hl, hk, b.2.2.1⟩, fun _ => rfl⟩
  · refine ⟨_, tFunc_find hm st eps e4 (by omega) (by omega), by simp, Nat.le_of_lt_succ e2, ?_, fun _ => ⟨?_, ?_, ?_⟩⟩
    · simp only
      exact ⟨fun h => by omega, fun h => absurd h a⟩
    · simp only
      refine ⟨fun h => ?_, fun ⟨l', k', h1, h2, h3⟩ => absurd h3 (b l' k' (by omega) (by omega))⟩
      rcases e3 with ⟨e3, _⟩ | ⟨e3, _⟩ <;> omega
    · simp only
      intro h
      rcases e3 with ⟨e3, _⟩ | ⟨e3, _⟩ <;> omega
    · intro _
      refine ⟨rfl, e1, ?_⟩
      rcases e3 with e3 | ⟨e3, e5⟩
      · exact Or.inl e3
      · exact Or.inr ⟨e3, by simp only; omega⟩

theorem xPath_zero_state {c : Nat → Nat → Cell (z ⊕ ε) p K} {l k : Nat} (h1 : (c l k).pterm = 0) (h2 : (c l k).qterm = 0) :
    xPath c l k (q0Of (0 : p ⊕ z → K) (0 : ε → K)) 0 = 0 := by
  have : q0Of (0 : p ⊕ z → K) (0 : ε → K) = 0 := by
    funext j; rcases j with j | j <;> rfl
  rw [xPath_zero, this, mulVec_zero, mulVec_zero, h1, h2, add_zero, add_zero]
  funext j; rcases j with j | j <;> rfl

/-- **C05** for `t_func`: whatever the state and shocks, no access outside the tables, if there is at least one binding
period in the tables (`k_max ≥ 1`). -/
theorem C05_transition_stays_inside_partial (h : Succeeded lay orc lMax kMax sched mod) (hk1 : 1 ≤ kMax) (st : p ⊕ z → K)
    (eps : ε → K) (linear : Bool) : ∃ r, tFunc mod st eps .none linear = .ok r := by
  obtain ⟨c, hm⟩ := genSys_ok h.perm h.gen
  obtain ⟨M', hS⟩ := hm.eng
  have := h.states
  cases linear with
  | false =>
    obtain ⟨l, k, flag, hf, hl, hk, _⟩ := findLk_cases (xbar := mod.xbar) (checkCnst_reads hS (q0Of st eps)) (by omega) (by omega)
    exact ⟨_, tFunc_find hm st eps hf (by omega) (by omega)⟩
  | true => exact ⟨_, tFunc_pair hm st eps (Nat.zero_le lMax) (Nat.zero_le kMax)⟩

/-- **C08**: linear mode, an imposed `(0,0)`, and an imposed `(l,0)` for any `l` in the tables (in particular `set_k=0`, which
means `(1,0)`) all give the same new state: the one of the linear solution `p = omg q`, `q' = lam q`. -/
theorem C08_linear_solution_everywhere (h : Succeeded lay orc lMax kMax sched mod) (st : p ⊕ z → K) (eps : ε → K) {l : Nat}
    (hl : l ≤ lMax) :
    (∃ r, tFunc mod st eps .none true = .ok r ∧ r.state = Sum.elim (mod.omg *ᵥ q0Of st eps) (fun i => (mod.lam *ᵥ q0Of st eps) (.inl i))) ∧
    (∃ r, tFunc mod st eps (.pair l 0) false = .ok r ∧
      r.state = Sum.elim (mod.omg *ᵥ q0Of st eps) (fun i => (mod.lam *ᵥ q0Of st eps) (.inl i))) ∧
    (1 ≤ lMax → tFunc mod st eps (.int 0) false = tFunc mod st eps (.pair 1 0) false) := by
  obtain ⟨c, hm⟩ := genSys_ok h.perm h.gen
  obtain ⟨M', hS⟩ := hm.eng
  have := h.states
  have hcell : ∀ l ≤ lMax, xPath c l 0 (q0Of st eps) 0 =
      Sum.elim (mod.omg *ᵥ q0Of st eps) (fun i => (mod.lam *ᵥ q0Of st eps) (.inl i)) := by
    intro l hl
    rw [xPath_zero, cells_l0 hS (sysOf_T12 h.orc).1 (h.orc.klein _ _ hm.kl) hl]
    simp only [add_zero]
  refine ⟨⟨_, tFunc_pair hm st eps (Nat.zero_le lMax) (Nat.zero_le kMax), hcell 0 (by omega)⟩,
    ⟨_, tFunc_pair hm st eps hl (Nat.zero_le kMax), hcell l hl⟩, fun _ => ?_⟩
  unfold tFunc tFuncRaw
  simp [setLK]

/-- **C10**, one step: at the steady state without shocks `t_func` finds `(0,0)`, flag 0, and stays. -/
theorem C10_steady_state_fixed_point (h : Succeeded lay orc lMax kMax sched mod) (hx : m.xbar < 0) (linear : Bool) :
    ∃ r, tFunc mod 0 0 .none linear = .ok r ∧ r.state = 0 ∧ r.l = 0 ∧ r.k = 0 ∧ r.flag = 0 := by
  obtain ⟨c, hm⟩ := genSys_ok h.perm h.gen
  obtain ⟨M', hS⟩ := hm.eng
  have := h.states
  have hcell : ∀ l ≤ lMax, c l 0 = ⟨mod.omg, 0, mod.lam, 0⟩ := fun l hl =>
    cells_l0 hS (sysOf_T12 h.orc).1 (h.orc.klein _ _ hm.kl) hl
  have h0 := hcell 0 (by omega)
  have hst : xPath c 0 0 (q0Of (0 : p ⊕ z → K) (0 : ε → K)) 0 = 0 := xPath_zero_state (by rw [h0]) (by rw [h0])
  cases linear with
  | true => exact ⟨_, tFunc_pair hm 0 0 (Nat.zero_le lMax) (Nat.zero_le kMax), hst, rfl, rfl, rfl⟩
  | false =>
    have hq : q0Of (0 : p ⊕ z → K) (0 : ε → K) = 0 := by
      funext j; rcases j with j | j <;> rfl
    have hpath : ∀ l ≤ lMax, ∀ s, qPath c l 0 (0 : z ⊕ ε → K) s = 0 := by
      intro l hl s
      induction s with
      | zero => rfl
      | succ s ih =>
        have : locCell c l 0 s = ⟨mod.omg, 0, mod.lam, 0⟩ := by
          unfold locCell lLoc kLoc
          rw [Nat.zero_min]
          exact hcell _ (by omega)
        simp only [qPath, ih, this, mulVec_zero, add_zero]
    have hp0 : ∀ l ≤ lMax, ∀ s, pPath c l 0 (0 : z ⊕ ε → K) s = 0 := by
      intro l hl s
      have : locCell c l 0 s = ⟨mod.omg, 0, mod.lam, 0⟩ := by
        unfold locCell lLoc kLoc
        rw [Nat.zero_min]
        exact hcell _ (by omega)
      simp only [pPath, hpath l hl s, this, mulVec_zero, add_zero]
    have hnb : NeverBinds (fun i l k => pathValue (ff lay) c (q0Of (0 : p ⊕ z → K) (0 : ε → K)) l k (slotPeriod l k i)) mod.xbar (lMax + 1) := by
      intro j hj
      simp only [hq, pathValue, hpath j (by omega), hp0 j (by omega), dotProduct_zero, add_zero]
      rw [hm.xbar]; exact hx
    have hfind : findLk (checkCnst mod.tables (q0Of (0 : p ⊕ z → K) (0 : ε → K))) mod.xbar (lMax + 1) (kMax + 1) = .ok (0, 0, 0) := by
      unfold findLk
      rcases slackLoop_spec (xbar := mod.xbar) (checkCnst_reads hS (q0Of (0 : p ⊕ z → K) (0 : ε → K))) (by omega) 0 (by omega) with
        ⟨h1, h2⟩ | ⟨⟨j, h1⟩, j', h2, h3⟩
      · rw [h2]; simp
      · exact absurd (hnb j h1.2.1) (not_lt.2 h1.2.2)
    exact ⟨_, tFunc_find hm 0 0 hfind (Nat.zero_le lMax) (Nat.zero_le kMax), hst, rfl, rfl, rfl⟩

/-- **C10**: a simulation without shocks started in the steady state stays there for any number of periods. -/
theorem C10_simulation_stays (h : Succeeded lay orc lMax kMax sched mod) (hx : m.xbar < 0) (linear : Bool) (n : Nat) :
    simLoop mod linear (0 : p ⊕ z → K) (List.replicate n 0) = .ok ⟨List.replicate (n + 1) 0, List.replicate n (0, 0), 0⟩ := by
  obtain ⟨r, h1, h2, h3, h4, h5⟩ := C10_steady_state_fixed_point h hx linear
  induction n with
  | zero => rfl
  | succ n ih =>
    rw [List.replicate_succ, simLoop, h1]
    simp only [h2, h3, h4, h5, ih]
    rfl

end Model

section NonVacuity
open Ex1

/-- The example model, for any table size. -/
theorem ex1_succeeds (lMax kMax : Nat) : ∃ mod, Succeeded Ex1.lay Ex1.orc lMax kMax (serial kMax) mod :=
  Ex1.succeeds lMax kMax (Ex1.serial_perm lMax kMax)

/-- **C05** refuted for `k_max = 0`, the setting that `prep_estim(linear=True)` chooses (`l_max, k_max = 1, 0`, stored as
`(2, 0)`): in the example model a large negative shock makes `find_lk` run past the end of the tables. -/
theorem C05_kmax_zero_refuted (prev : Option (Int × Int)) :
    newLks (some 1) (some 0) prev = .ok (2, 0) ∧
    ∃ mod, Succeeded Ex1.lay Ex1.orc 2 0 (serial 0) mod ∧ tFunc mod 0 (fun _ => -9/4) .none false = .error .oob := by
  refine ⟨by rfl, ?_⟩
  obtain ⟨mod, h⟩ := ex1_succeeds 2 0
  refine ⟨mod, h, ?_⟩
  obtain ⟨c, hm⟩ := genSys_ok h.perm h.gen
  obtain ⟨M', hS⟩ := hm.eng
  have hxb : mod.xbar = -1 := hm.xbar
  have h0 := hS.complete.start
  have hkl := hm.kl
  simp only [Ex1.orc, Except.ok.injEq, Prod.mk.injEq] at hkl
  rw [← hkl.1, ← hkl.2] at h0
  have hnb : ¬ NeverBinds (fun i l k => pathValue (ff Ex1.lay) c (q0Of (0 : Fin 1 ⊕ Fin 1 → Rat) (fun _ => -9/4)) l k
      (slotPeriod l k i)) mod.xbar (2 + 1) := by
    intro hn
    have := hn 0 (by omega)
    have hv : pathValue (ff Ex1.lay) c (q0Of (0 : Fin 1 ⊕ Fin 1 → Rat) (fun _ => -9/4)) 0 0 0 = -3/2 := by
      simp only [pathValue, fp1_eq, fq0_eq, fq1_eq, zero_dotProduct, qPath, locCell, lLoc, kLoc, Nat.sub_self, Nat.add_zero,
        Nat.min_self, h0, add_zero]
      simp [dotProduct, Fintype.sum_sum_type, mulVec, Ex1.lam, q0Of]
      norm_num
    simp only [slotPeriod, hv, hxb] at this
    norm_num at this
  have hfind := (findLk_one_column (xbar := mod.xbar)
    (checkCnst_reads hS (q0Of (0 : Fin 1 ⊕ Fin 1 → Rat) (fun _ => -9/4))) (by omega)).2 hnb
  have e : tFuncJit mod.tables mod.xbar (q0Of (0 : Fin 1 ⊕ Fin 1 → Rat) (fun _ => -9/4)) (some (-1, -1)) = .error .oob := by
    unfold tFuncJit
    simp only [if_true, hS.shapeL, hS.shapeK]
    rw [hfind]
  have hz : ¬ (Fintype.card (Fin 1) = 0 ∧ Fintype.card (Fin 1) ≠ 0) := by simp
  unfold tFunc tFuncRaw
  rw [if_neg hz]
  simp only [setLK, Bool.false_eq_true, if_false]
  unfold q0Of at e
  rw [e]

/-- C04, C05, C06, C07, C11 are not vacuous: the example model is solved for any table size, and the search finds a spell. -/
example : ∃ mod, Succeeded Ex1.lay Ex1.orc 2 30 (serial 30) mod ∧
    ∃ r, tFunc mod 0 (fun _ => -9/4) .none false = .ok r ∧ r.l = 0 ∧ r.k = 1 ∧ r.flag = 0 := by
  obtain ⟨mod, h⟩ := ex1_succeeds 2 30
  obtain ⟨r, h1, h2, h3, h4, _⟩ := Ex1.binding_run 2 30 (by omega) (by omega) h
  exact ⟨mod, h, r, h1, h2, h3, h4⟩

/-- C07: the parallel loop may really run in another order. -/
example : ∀ l < 3, ((fun _ => (List.range 5).reverse : Nat → List Nat) l).Perm (List.range 5) :=
  fun _ _ => List.reverse_perm _

/-- C10: the bound of the example model is negative. -/
example : Ex1.inp'.xbar < 0 := by show (-1 : Rat) < 0; norm_num

end NonVacuity
end Pydsge
