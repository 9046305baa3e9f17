import Verif.Props.Direction

/-!
# C186: the direction is decided by announcements of one period
-/

set_option autoImplicit false
set_option linter.unusedSectionVars false
set_option linter.unusedSimpArgs false

namespace Pydsge

open Matrix Pydsge.Engine Pydsge.Spec Pydsge.Tools Pydsge.GenSys

variable {E ν ε o K : Type} [Fintype E] [Fintype ν] [Fintype ε] [Fintype o]
  [DecidableEq E] [DecidableEq ν] [DecidableEq ε] [Field K] [LinearOrder K] [IsStrictOrderedRing K]
variable {H z p : Type} [DecidableEq H] [Fintype H] [Fintype z] [Fintype p] [DecidableEq z] [DecidableEq p]
section Yaml
variable {D : Declared E ν ε K} {Z0 : Matrix o ν K} {Z1 : o → K} {tol : K} [DecidablePred (inall tol (yaml D Z0 Z1))]
  {lay : Layout tol (yaml D Z0 Z1) H z p}
  {orc : Oracle (Rows E H ε) (z ⊕ ε) p K} {lMax kMax : Nat} {sched : Nat → List Nat} {mod : Model z ε p o K}

/-- A disturbance of size one in period `i` only. -/
def Spec.oneAt (i : Nat) : Nat → K := fun s => if s = i then 1 else 0

variable (h : Succeeded lay orc lMax kMax sched mod) (hlag : Spec.LagsNotExpected D) (hself : D.rb D.cvar ≠ 1) (hP : Spec.NoReversalOf lay mod)
include h hlag hself hP

/-- Responses to disturbances that end exist and are unique. -/
theorem announced_exists_unique {n : Nat} {w : Nat → K} (hw : ∀ s, n ≤ s → w s = 0) : ∃! d, Spec.AnnouncedResponse lay mod d w := by
  obtain ⟨Q, P, hd, h0⟩ := disturbed_some h hlag hself hP n w hw 0
  obtain ⟨a1, a2, a3⟩ := disturbed_declared h hlag hself hd (st0 := 0) (eps := 0) (by rw [h0]; funext j; rcases j with i | i <;> rfl)
  rw [lagVal_zero_of h] at a1 a2
  refine ⟨declQP lay Q P, ⟨a1, a2, n, a3⟩, fun d hdr => ?_⟩
  obtain ⟨b1, b2, n', b3⟩ := hdr
  have e0 := lagVal_zero_of h
  refine same_of_noReversal h hP (st0 := 0) (eps := 0) (fun s => by rw [e0]; exact b1 s) (fun s => by rw [e0]; exact a1 s)
    (joins_mono b3 (le_max_right n n')) (joins_mono a3 (le_max_left n n')) fun s => ?_
  rw [e0, b2 s, a2 s]
  simp

omit hP in
/-- Disturbances end when the response is on the linear solution. -/
theorem announced_ends {d : Nat → ν → K} {w : Nat → K} (hd : Spec.AnnouncedResponse lay mod d w) : ∃ n, ∀ s, n ≤ s → w s = 0 := by
  obtain ⟨n, hn⟩ := hd.ends
  refine ⟨n, fun s hs => ?_⟩
  have h1 := rule_of_joins h hlag hself hn hs
  rw [lagVal_zero_of h] at h1
  have h2 := hd.rule s
  rw [← h1] at h2
  simpa using h2.symm

/-- Responses add up. -/
theorem announced_comb {d d' : Nat → ν → K} {w w' : Nat → K} (hd : Spec.AnnouncedResponse lay mod d w)
    (hd' : Spec.AnnouncedResponse lay mod d' w') (c : K) : Spec.AnnouncedResponse lay mod (fun s v => d s v + c * d' s v) (fun s => w s + c * w' s) := by
  obtain ⟨n, hn⟩ := announced_ends h hlag hself hd
  obtain ⟨n', hn'⟩ := announced_ends h hlag hself hd'
  have e0 := lagVal_zero_of h
  have q00 : (0 : z ⊕ ε → K) = q0Of (0 : p ⊕ z → K) (0 : ε → K) := by
    funext j
    rcases j with i | i <;> rfl
  obtain ⟨Q, P, hq, h0⟩ := disturbed_some h hlag hself hP (max n n') w (fun s hs => hn s ((le_max_left _ _).trans hs)) 0
  obtain ⟨Q', P', hq', h0'⟩ := disturbed_some h hlag hself hP (max n n') w' (fun s hs => hn' s ((le_max_right _ _).trans hs)) 0
  have same : ∀ {Q0 : Nat → z ⊕ ε → K} {P0 : Nat → p → K} {w0 : Nat → K} {d0 : Nat → ν → K} {m m' : Nat}, Disturbed lay mod.omg mod.lam m Q0 P0 w0 →
      Q0 0 = 0 → (∀ s, m' ≤ s → w0 s = 0) → Spec.AnnouncedResponse lay mod d0 w0 → d0 = declQP lay Q0 P0 := by
    intro Q0 P0 w0 d0 m m' g1 g2 g3 g4
    obtain ⟨a1, a2, a3⟩ := disturbed_declared h hlag hself g1 (g2.trans q00)
    rw [e0] at a1 a2
    exact (announced_exists_unique h hlag hself hP g3).unique g4 ⟨a1, a2, _, a3⟩
  have ed := same hq h0 hn hd
  have ed' := same hq' h0' hn' hd'
  obtain ⟨a1, a2, a3⟩ := disturbed_declared h hlag hself (hq.add (hq'.smul c)) (st0 := 0) (eps := 0)
    (by rw [← q00, Pi.add_apply, Pi.smul_apply, h0, h0', smul_zero, add_zero])
  rw [e0] at a1 a2
  have e : (fun s v => d s v + c * d' s v) = declQP lay (Q + c • Q') (P + c • P') := by
    funext s v
    rw [declQP_add, declQP_smul, ed, ed']
  rw [e]
  exact ⟨a1, a2, _, a3⟩

theorem direction_iff (c : K) (v : ν) (t : Nat) :
    (∀ d w, Spec.AnnouncedResponse lay mod d w → (∀ s, 0 ≤ w s) → c * d t v ≤ 0) ↔
      ∀ i d, Spec.AnnouncedResponse lay mod d (Spec.oneAt i) → c * d t v ≤ 0 := by
  constructor
  · intro hl i d hd
    refine hl d _ hd fun s => ?_
    unfold Spec.oneAt
    split_ifs
    · exact zero_le_one
    · exact le_rfl
  · intro h1 d w hd hw
    obtain ⟨n, hn⟩ := announced_ends h hlag hself hd
    induction n generalizing d w with
    | zero =>
      obtain rfl : w = 0 := funext fun s => hn s (Nat.zero_le s)
      have h2 := announced_comb h hlag hself hP hd hd (-1)
      have e : (fun s => (0 : Nat → K) s + -1 * (0 : Nat → K) s) = 0 := by
        funext s
        simp
      rw [e] at h2
      have := (announced_exists_unique h hlag hself hP hn).unique hd h2
      have : d t v = 0 := by
        have := congrFun (congrFun this t) v
        linarith
      rw [this, mul_zero]
    | succ n ih =>
      obtain ⟨d1, hd1, -⟩ := announced_exists_unique h hlag hself hP (n := n + 1) (w := Spec.oneAt n) fun s hs => by
        unfold Spec.oneAt
        rw [if_neg (by omega)]
      have h2 := announced_comb h hlag hself hP hd hd1 (-(w n))
      have h3 := ih _ _ h2 (fun s => ?_) (fun s hs => ?_)
      · have h4 := h1 n d1 hd1
        have h5 := mul_nonpos_of_nonneg_of_nonpos (hw n) h4
        have h6 : c * (d t v + -(w n) * d1 t v) = c * d t v - w n * (c * d1 t v) := by ring
        rw [h6] at h3
        linarith
      · unfold Spec.oneAt
        by_cases hs : s = n
        · subst hs
          simp
        · simp only [if_neg hs]
          have := hw s
          linarith
      · unfold Spec.oneAt
        by_cases hs' : s = n
        · subst hs'
          simp
        · simp only [if_neg hs']
          rw [hn s (by omega)]
          ring

/-- **C186**: announced increases never raise a variable if and only if no announcement for one period does: the direction is a matter of the
responses of the linear model to single announced increases. -/
theorem C186_lowers_iff (v : ν) (t : Nat) :
    Spec.Lowers lay mod v t ↔ ∀ i d, Spec.AnnouncedResponse lay mod d (Spec.oneAt i) → d t v ≤ 0 := by
  have := direction_iff h hlag hself hP 1 v t
  simp only [one_mul] at this
  exact this

/-- **C186**: and likewise for variables that they raise. -/
theorem C186_raises_iff (v : ν) (t : Nat) :
    Spec.Raises lay mod v t ↔ ∀ i d, Spec.AnnouncedResponse lay mod d (Spec.oneAt i) → 0 ≤ d t v := by
  have := direction_iff h hlag hself hP (-1) v t
  simp only [neg_one_mul, Left.neg_nonpos_iff] at this
  exact this

end Yaml

/-- **C186**: the hypotheses are met; the responses to announcements of one period exist, and are not zero. -/
theorem C186_iff_hypotheses_met : ∃ mod, Succeeded Ex16.lay Ex16.orc 3 5 (serial 5) mod ∧ Spec.LagsNotExpected Ex16.decl ∧
    Ex16.decl.rb Ex16.decl.cvar ≠ 1 ∧ Spec.NoReversalOf Ex16.lay mod ∧
    ∀ i, ∃ d, Spec.AnnouncedResponse Ex16.lay mod d (Spec.oneAt (i + 1)) ∧ d i 1 = -1 + 1/2 * prev 0 d i 1 := by
  obtain ⟨mod, h⟩ := Ex16.succeeds 3 5 (Ex16.serial_perm 3 5)
  refine ⟨mod, h, Ex16.lagsNotExpected, Ex16.self_ne, Ex16.noReversalOf, fun i => ?_⟩
  obtain ⟨d, hd, -⟩ := announced_exists_unique h Ex16.lagsNotExpected Ex16.self_ne Ex16.noReversalOf (n := i + 2)
    (w := Spec.oneAt (i + 1)) fun s hs => by
      unfold Spec.oneAt
      rw [if_neg (by omega)]
  refine ⟨d, hd, ?_⟩
  rw [(Ex16.response_iff hd i).2.2]
  unfold Spec.oneAt
  rw [if_pos rfl]
  ring

end Pydsge
