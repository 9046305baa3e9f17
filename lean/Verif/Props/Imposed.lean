import Verif.Model.Imposed
import Verif.Props.ConLag
import Verif.Props.Irfs
import Verif.Examples.Ex1Run

/-!
# C179: imposed durations

`set_k : tuple of int, optional: set the expected number of periods if desired` (docstring of `t_func`).
-/

set_option autoImplicit false
set_option linter.unusedSectionVars false
set_option linter.unusedSimpArgs false

namespace Pydsge

open Matrix Pydsge.Engine Pydsge.Spec Pydsge.Tools Pydsge.GenSys

variable {E ν ε o K : Type} [Fintype E] [Fintype ν] [Fintype ε] [Fintype o]
  [DecidableEq E] [DecidableEq ν] [DecidableEq ε] [Field K] [LinearOrder K] [IsStrictOrderedRing K]
variable {H z p : Type} [DecidableEq H] [Fintype H] [Fintype z] [Fintype p] [DecidableEq z] [DecidableEq p]

/-- What is returned belongs to the durations that are returned: it is the first period of the path that is expected under them. -/
def Spec.Belongs (mod : Model z ε p o K) (st : p ⊕ z → K) (eps : ε → K) (r : Returned z p K) : Prop :=
  ∃ l k : Nat, r.l = l ∧ r.k = k ∧ ∃ X, ExpectedPath mod l k st eps X ∧ X 0 = r.state

section
variable {tol : K} {m : Input E ν ε o K} [DecidablePred (inall tol m)] {lay : Layout tol m H z p}
  {orc : Oracle (Rows E H ε) (z ⊕ ε) p K} {lMax kMax : Nat} {sched : Nat → List Nat} {mod : Model z ε p o K}

theorem pyIdx_wrap {n : Nat} {i : Int} (h1 : -(n : Int) ≤ i) (h2 : i < n) : pyIdx n i = .ok (i % n).toNat := by
  unfold pyIdx
  by_cases h : 0 ≤ i
  · rw [if_pos ⟨h, h2⟩, Int.emod_eq_of_lt h h2]
  · rw [if_neg (by omega), if_pos (by omega), ← Int.add_emod_right, Int.emod_eq_of_lt (by omega) (by omega), add_comm]

theorem pyIdx_outside {n : Nat} {i : Int} (h : ¬ (-(n : Int) ≤ i ∧ i < n)) : pyIdx n i = .error .oob := by
  unfold pyIdx
  rw [if_neg (by omega), if_neg (by omega)]

/-- For `set_k == -1` the transition searches, whatever `l` is. -/
theorem tFunc_minus_one (mod : Model z ε p o K) (st : p ⊕ z → K) (eps : ε → K) (l : Int) :
    tFunc mod st eps (.pair l (-1)) false = tFunc mod st eps .none false := by
  unfold tFunc tFuncRaw tFuncJit
  simp [setLK]

theorem tFunc_wrap (h : Succeeded lay orc lMax kMax sched mod) (st : p ⊕ z → K) (eps : ε → K) {l k : Int} (hk : k ≠ -1)
    (hl1 : -((lMax : Int) + 1) ≤ l) (hl2 : l ≤ lMax) (hk1 : -((kMax : Int) + 1) ≤ k) (hk2 : k ≤ kMax) :
    tFunc mod st eps (.pair l k) false = tFunc mod st eps (.pair (l % (lMax + 1)) (k % (kMax + 1))) false := by
  obtain ⟨c, hm⟩ := genSys_ok h.perm h.gen
  obtain ⟨M, hS⟩ := hm.eng
  have a1 : 0 ≤ l % ((lMax : Int) + 1) := Int.emod_nonneg _ (by omega)
  have a2 : l % ((lMax : Int) + 1) < lMax + 1 := Int.emod_lt_of_pos _ (by omega)
  have b1 : 0 ≤ k % ((kMax : Int) + 1) := Int.emod_nonneg _ (by omega)
  have b2 : k % ((kMax : Int) + 1) < kMax + 1 := Int.emod_lt_of_pos _ (by omega)
  have e1 : pyIdx (lMax + 1) l = pyIdx (lMax + 1) (l % (lMax + 1)) := by
    rw [pyIdx_wrap (by push_cast; omega) (by push_cast; omega), pyIdx_wrap (by push_cast; omega) (by push_cast; omega)]
    push_cast
    rw [Int.emod_emod_of_dvd _ (dvd_refl _)]
  have e2 : pyIdx (kMax + 1) k = pyIdx (kMax + 1) (k % (kMax + 1)) := by
    rw [pyIdx_wrap (by push_cast; omega) (by push_cast; omega), pyIdx_wrap (by push_cast; omega) (by push_cast; omega)]
    push_cast
    rw [Int.emod_emod_of_dvd _ (dvd_refl _)]
  have hk' : k % ((kMax : Int) + 1) ≠ -1 := by omega
  unfold tFunc tFuncRaw tFuncJit
  simp only [setLK, Bool.false_eq_true, if_false, hk, hk', hS.shapeL, hS.shapeK, e1, e2]

theorem tFunc_off (h : Succeeded lay orc lMax kMax sched mod) (st : p ⊕ z → K) (eps : ε → K) {l k : Int} (hk : k ≠ -1)
    (ho : ¬ (-((lMax : Int) + 1) ≤ l ∧ l ≤ lMax ∧ -((kMax : Int) + 1) ≤ k ∧ k ≤ kMax)) :
    tFunc mod st eps (.pair l k) false = .error .oob := by
  obtain ⟨c, hm⟩ := genSys_ok h.perm h.gen
  obtain ⟨M, hS⟩ := hm.eng
  have := h.states
  have hz : ¬ (Fintype.card z = 0 ∧ Fintype.card p ≠ 0) := by
    have := Fintype.card_ne_zero (α := z); tauto
  unfold tFunc tFuncRaw tFuncJit
  simp only [setLK, Bool.false_eq_true, if_false, hk, hS.shapeL, hS.shapeK, hz]
  by_cases hl : -((lMax : Int) + 1) ≤ l ∧ l ≤ lMax
  · rw [pyIdx_wrap (by push_cast; omega) (by push_cast; omega), pyIdx_outside (n := kMax + 1) (by push_cast; omega)]
  · rw [pyIdx_outside (n := lMax + 1) (by push_cast; omega)]

/-- **C179 (partial).** Durations that are not negative and fit the tables are imposed and reported as they are, and the result is the first period of
the path expected under them; durations that are found are reported as found. -/
theorem C179_imposed_partial (h : Succeeded lay orc lMax kMax sched mod) (st : p ⊕ z → K) (eps : ε → K) {l k : Nat} (hl : l ≤ lMax)
    (hk : k ≤ kMax) {X : Nat → p ⊕ z → K} (hX : ExpectedPath mod l k st eps X) :
    tFuncK mod st eps (.pair l k) false = .ok ⟨X 0, l, k, 0⟩ ∧ (k ≠ 0 → l = 0 → tFuncK mod st eps (.int k) false = .ok ⟨X 0, 0, k, 0⟩) := by
  obtain ⟨r, h1, h2⟩ := hX 0
  obtain ⟨c, hm⟩ := genSys_ok h.perm h.gen
  have := h.states
  have e0 : elapsed l k 0 = (l, k) := by unfold elapsed; simp
  have h1' : tFunc mod st eps (.pair l k) false = .ok r := by rw [e0] at h1; exact h1
  have hr : r = ⟨xPath c l k (q0Of st eps) 0, l, k, 0⟩ := by
    have := tFunc_pair hm st eps hl hk
    rw [h1'] at this
    exact Except.ok.inj this
  have e1 : (setLK false (.pair l k)).2 ≠ -1 := by simp [setLK]
  refine ⟨?_, fun hk0 hl0 => ?_⟩
  · unfold tFuncK
    rw [h1']
    simp only [e1, if_false, h2]
    subst hr
    rfl
  · subst hl0
    have e2 : tFunc mod st eps (.int k) false = tFunc mod st eps (.pair (0 : Nat) k) false := by
      unfold tFunc tFuncRaw
      simp [setLK, hk0]
    unfold tFuncK
    rw [e2, h1']
    have e3 : setLK false (.int k) = (0, (k : Int)) := by simp [setLK, hk0]
    have e4 : ((k : Int) = -1) = False := by simp
    simp only [e3, e4, if_false, h2]
    subst hr
    rfl

/-- **C179**: what happens for all pairs of integers. Where `k` is `-1`, `l` is ignored and the durations are searched for. Otherwise a negative
number counts from the end of the tables: the result is that of the remainders, the report that of the negative numbers, the flag 0. Durations
outside the tables are read from memory that does not belong to them. -/
theorem C179_outcome (h : Succeeded lay orc lMax kMax sched mod) (st : p ⊕ z → K) (eps : ε → K) (l k : Int) :
    (k = -1 → tFuncK mod st eps (.pair l k) false = tFuncK mod st eps .none false) ∧
    (k ≠ -1 → -((lMax : Int) + 1) ≤ l ∧ l ≤ lMax ∧ -((kMax : Int) + 1) ≤ k ∧ k ≤ kMax →
      ∃ l' k' : Nat, l' ≤ lMax ∧ k' ≤ kMax ∧ (l' = l ∨ l' = l + (lMax + 1)) ∧ (k' = k ∨ k' = k + (kMax + 1)) ∧
        ∀ X, ExpectedPath mod l' k' st eps X → tFuncK mod st eps (.pair l k) false = .ok ⟨X 0, l, k, 0⟩) ∧
    (k ≠ -1 → ¬ (-((lMax : Int) + 1) ≤ l ∧ l ≤ lMax ∧ -((kMax : Int) + 1) ≤ k ∧ k ≤ kMax) →
      tFuncK mod st eps (.pair l k) false = .error .oob) := by
  refine ⟨fun hk => ?_, fun hk hb => ?_, fun hk ho => ?_⟩
  · subst hk
    unfold tFuncK
    rw [tFunc_minus_one]
    simp only [setLK, Bool.false_eq_true, if_false, if_true]
  · have a1 : 0 ≤ l % ((lMax : Int) + 1) := Int.emod_nonneg _ (by omega)
    have a2 : l % ((lMax : Int) + 1) < lMax + 1 := Int.emod_lt_of_pos _ (by omega)
    have b1 : 0 ≤ k % ((kMax : Int) + 1) := Int.emod_nonneg _ (by omega)
    have b2 : k % ((kMax : Int) + 1) < kMax + 1 := Int.emod_lt_of_pos _ (by omega)
    have wrap : ∀ (n : Nat) (i : Int), -((n : Int) + 1) ≤ i → i ≤ n → i % ((n : Int) + 1) = i ∨ i % ((n : Int) + 1) = i + (n + 1) := by
      intro n i h1 h2
      by_cases h0 : 0 ≤ i
      · left; exact Int.emod_eq_of_lt h0 (by omega)
      · right; rw [← Int.add_emod_right]; exact Int.emod_eq_of_lt (by omega) (by omega)
    refine ⟨(l % (lMax + 1)).toNat, (k % (kMax + 1)).toNat, by omega, by omega, ?_, ?_, fun X hX => ?_⟩
    · rw [Int.toNat_of_nonneg a1]; exact wrap lMax l hb.1 hb.2.1
    · rw [Int.toNat_of_nonneg b1]; exact wrap kMax k hb.2.2.1 hb.2.2.2
    · obtain ⟨r, h1, h2⟩ := hX 0
      obtain ⟨c, hm⟩ := genSys_ok h.perm h.gen
      have := h.states
      have e0 : elapsed (l % ((lMax : Int) + 1)).toNat (k % ((kMax : Int) + 1)).toNat 0 =
        ((l % ((lMax : Int) + 1)).toNat, (k % ((kMax : Int) + 1)).toNat) := by unfold elapsed; simp
      rw [e0] at h1
      simp only [Int.toNat_of_nonneg a1, Int.toNat_of_nonneg b1] at h1
      have h1' : tFunc mod st eps (.pair l k) false = .ok r := by
        rw [tFunc_wrap h st eps hk hb.1 hb.2.1 hb.2.2.1 hb.2.2.2]
        exact h1
      have hf : r.flag = 0 := by
        have := tFunc_pair hm st eps (l := (l % ((lMax : Int) + 1)).toNat) (k := (k % ((kMax : Int) + 1)).toNat) (by omega) (by omega)
        rw [Int.toNat_of_nonneg a1, Int.toNat_of_nonneg b1] at this
        rw [show tFunc mod st eps (.pair (l % (lMax + 1)) (k % (kMax + 1))) false = .ok r from h1] at this
        rw [Except.ok.inj this]
      have e1 : (setLK false (.pair l k)).2 ≠ -1 := by simpa [setLK] using hk
      unfold tFuncK
      rw [h1']
      simp only [e1, if_false, h2, hf]
      rfl
  · unfold tFuncK
    rw [tFunc_off h st eps hk ho]

theorem expectedPath_exists (h : Succeeded lay orc lMax kMax sched mod) {l k : Nat} (hl : l ≤ lMax) (hk : k ≤ kMax) (st : p ⊕ z → K)
    (eps : ε → K) : ∃ X, ExpectedPath mod l k st eps X := by
  choose f hf using fun a : (p ⊕ z → K) × (ε → K) × Nat =>
    expected_exists h (elapsed_le hl hk a.2.2).1 (elapsed_le hl hk a.2.2).2 a.1 a.2.1
  refine ⟨fun s => Nat.rec (f (st, eps, 0)).state (fun s x => (f (x, 0, s + 1)).state) s, fun s => ?_⟩
  cases s with
  | zero => exact ⟨_, hf (st, eps, 0), rfl⟩
  | succ s => exact ⟨_, hf (_, 0, s + 1), rfl⟩

/-- **C179 (partial)**: what is returned belongs to the durations that are returned, if no negative ones are imposed. -/
theorem C179_belongs_partial (h : Succeeded lay orc lMax kMax sched mod) (hk1 : 1 ≤ kMax) (st : p ⊕ z → K) (eps : ε → K) (l k : Int)
    (hn : k = -1 ∨ (0 ≤ l ∧ 0 ≤ k)) {r : Returned z p K} (hr : tFuncK mod st eps (.pair l k) false = .ok r) : Spec.Belongs mod st eps r := by
  obtain ⟨c, hm⟩ := genSys_ok h.perm h.gen
  obtain ⟨M, hS⟩ := hm.eng
  have := h.states
  have hpath : ∀ {l k : Nat}, l ≤ lMax → k ≤ kMax → ∃ X, ExpectedPath mod l k st eps X ∧ X 0 = xPath c l k (q0Of st eps) 0 :=
    fun {l k} hl hk => by
      obtain ⟨X, hX⟩ := expectedPath_exists h hl hk st eps
      obtain ⟨r, h1, h2⟩ := hX 0
      have e0 : elapsed l k 0 = (l, k) := by unfold elapsed; simp
      rw [e0] at h1
      have h3 := tFunc_pair hm st eps hl hk
      rw [show tFunc mod st eps (.pair l k) false = .ok r from h1] at h3
      exact ⟨X, hX, by rw [h2, Except.ok.inj h3]⟩
  by_cases hk : k = -1
  · rw [(C179_outcome h st eps l k).1 hk] at hr
    obtain ⟨l', k', flag, hf, hl', hk', -⟩ := findLk_cases (xbar := mod.xbar) (checkCnst_reads hS (q0Of st eps)) (by omega) (by omega)
    have e := tFunc_find hm st eps hf (by omega) (by omega)
    unfold tFuncK at hr
    rw [e] at hr
    simp only [setLK, Bool.false_eq_true, if_false, if_true] at hr
    cases hr
    exact ⟨l', k', rfl, rfl, hpath (by omega) (by omega)⟩
  · have hn' : 0 ≤ l ∧ 0 ≤ k := by omega
    by_cases hb : -((lMax : Int) + 1) ≤ l ∧ l ≤ lMax ∧ -((kMax : Int) + 1) ≤ k ∧ k ≤ kMax
    · obtain ⟨X, hX, hX0⟩ := hpath (l := l.toNat) (k := k.toNat) (by omega) (by omega)
      have e := (C179_imposed_partial h st eps (l := l.toNat) (k := k.toNat) (by omega) (by omega) hX).1
      rw [Int.toNat_of_nonneg hn'.1, Int.toNat_of_nonneg hn'.2] at e
      rw [e] at hr
      cases hr
      exact ⟨l.toNat, k.toNat, (Int.toNat_of_nonneg hn'.1).symm, (Int.toNat_of_nonneg hn'.2).symm, X, hX, rfl⟩
    · rw [(C179_outcome h st eps l k).2.2 hk hb] at hr
      cases hr

end

/-- At the steady state of the example, a spell that binds now puts the constrained variable at its bound. -/
theorem Ex1.spell_value {lMax kMax : Nat} {sched : Nat → List Nat} {mod : Model (Fin 1) (Fin 1) (Fin 1) (Fin 1) Rat}
    (h : Succeeded Ex1.lay Ex1.orc lMax kMax sched mod) {k : Nat} (hk0 : 0 < k) (hk : k ≤ kMax) {X : Nat → Fin 1 ⊕ Fin 1 → Rat}
    (hX : ExpectedPath mod 0 k 0 0 X) : Ex1.lay.val (X 0) (.inl 1) = -1 := by
  have hs1 : Ex1.decl.rb Ex1.decl.cvar ≠ 1 := by show (if (1 : Fin 2) = 0 then (1 : Rat) else 0) ≠ 1; simp
  exact (C148_paths_solve h (.of_rc rfl) hs1 (Nat.zero_le _) hk 0 0 X hX).binding 0 (by unfold BindsAt; omega)

/-- **C179 (refuted).** At the steady state and without shocks, `set_k=(0,-2)` puts the constrained variable of the example at its bound (the result is that
of a spell of 29 periods); the report is the duration -2 and flag 0. Neither `t_func` nor `irfs` raises. -/
theorem C179_imposed_refuted : ∃ mod, Succeeded Ex1.lay Ex1.orc 2 30 (serial 30) mod ∧
    (∃ r, tFuncK mod 0 0 (.pair 0 (-2)) false = .ok r ∧ r.l = 0 ∧ r.k = -2 ∧ r.flag = 0 ∧ Ex1.lay.val r.state (.inl 1) = -1 ∧
      ¬ Spec.Belongs mod 0 0 r ∧ ∀ X, ExpectedPath mod 0 29 0 0 X → r.state = X 0) ∧
    ∃ st, Tools.irfs mod ⟨[], .pair 0 (-2), false, false⟩ 0 1 = .ok [st] ∧ st.flag = 0 ∧ Ex1.lay.val st.state (.inl 1) = -1 := by
  obtain ⟨mod, h⟩ := Ex1.succeeds 2 30 (Ex1.serial_perm 2 30)
  obtain ⟨X, hX⟩ := expectedPath_exists h (l := 0) (k := 29) (by omega) (by omega) 0 0
  have hv := Ex1.spell_value h (by omega) (by omega) hX
  obtain ⟨l', k', a1, a2, a3, a4, a5⟩ := (C179_outcome h 0 0 0 (-2)).2.1 (by omega) (by omega)
  have el : l' = 0 := by omega
  have ek : k' = 29 := by omega
  subst el ek
  have e := a5 X hX
  refine ⟨mod, h, ⟨_, e, rfl, rfl, rfl, hv, ?_, fun Y hY => ?_⟩, ?_⟩
  · rintro ⟨l, k, -, h2, -⟩
    have h2' : (-2 : Int) = k := h2
    omega
  · have e' := a5 Y hY
    rw [e] at e'
    have := Except.ok.inj e'
    simp only [Returned.mk.injEq, and_true] at this
    exact this
  · have ht : ∃ r, tFunc mod 0 0 (.pair 0 (-2)) false = .ok r ∧ r.state = X 0 ∧ r.flag = 0 := by
      unfold tFuncK at e
      cases hr : tFunc mod 0 0 (.pair 0 (-2)) false with
      | error e' => rw [hr] at e; cases e
      | ok r =>
        rw [hr] at e
        simp only [setLK, Bool.false_eq_true, if_false, reduceIte] at e
        have := Except.ok.inj e
        simp only [Returned.mk.injEq] at this
        exact ⟨r, rfl, this.1, this.2.2.2⟩
    obtain ⟨r, h1, h2, h3⟩ := ht
    obtain ⟨c, hm⟩ := genSys_ok h.perm h.gen
    have hlk : mod.lks = (2, 30) := hm.lks
    refine ⟨⟨r.state, r.l, r.k, 0 ||| r.flag, false || false⟩, ?_, ?_, ?_⟩
    · have hs : shkVec ([] : List (ShockSpec (Fin 1) Rat)) 0 = 0 := rfl
      have hc : setKEff (.pair 0 (-2)) 0 = .pair 0 (-2) := rfl
      unfold Tools.irfs irfRun irfStep irfRun
      simp only [Bool.false_and, Bool.false_eq_true, if_false, hs, hc, tooLong, hlk]
      rw [if_neg (by decide)]
      simp only [h1]
    · simp [h3]
    · show Ex1.lay.val r.state (.inl 1) = -1
      rw [h2]; exact hv

/-- **C179**: the hypotheses of the partial theorems are met. -/
example : ∃ mod, Succeeded Ex1.lay Ex1.orc 2 30 (serial 30) mod ∧ ∃ X, ExpectedPath mod 1 4 0 0 X ∧
    tFuncK mod 0 0 (.pair 1 4) false = .ok ⟨X 0, 1, 4, 0⟩ := by
  obtain ⟨mod, h⟩ := Ex1.succeeds 2 30 (Ex1.serial_perm 2 30)
  obtain ⟨X, hX⟩ := expectedPath_exists h (l := 1) (k := 4) (by omega) (by omega) 0 0
  exact ⟨mod, h, X, hX, (C179_imposed_partial h 0 0 (by omega) (by omega) hX).1⟩

end Pydsge
