import Verif.Props.ContinuityEx

/-!
# C168: bounded shocks give bounded simulations over every horizon
-/

set_option autoImplicit false
set_option linter.unusedSectionVars false
set_option linter.unusedSimpArgs false

namespace Pydsge

open Matrix Pydsge.Engine Pydsge.Spec Pydsge.Tools Pydsge.GenSys

variable {E ν ε o K : Type} [Fintype E] [Fintype ν] [Fintype ε] [Fintype o]
  [DecidableEq E] [DecidableEq ν] [DecidableEq ε] [Field K] [LinearOrder K] [IsStrictOrderedRing K]
variable {H z p : Type} [DecidableEq H] [Fintype H] [Fintype z] [Fintype p] [DecidableEq z] [DecidableEq p]
variable {tol : K} {m : Input E ν ε o K} [DecidablePred (inall tol m)] {lay : Layout tol m H z p}
  {orc : Oracle (Rows E H ε) (z ⊕ ε) p K} {lMax kMax : Nat} {sched : Nat → List Nat} {mod : Model z ε p o K}

/-- the size of all coefficients of one cell, with the constants -/
def cellAll (c : Cell (z ⊕ ε) p K) : K := cellSize c * Fintype.card (z ⊕ ε) + (size1 c.pterm + size1 c.qterm)

theorem cellAll_nonneg (c : Cell (z ⊕ ε) p K) : 0 ≤ cellAll c := by
  have h1 := cellSize_nonneg c
  have h2 := size1_nonneg c.pterm
  have h3 := size1_nonneg c.qterm
  have h4 : (0 : K) ≤ Fintype.card (z ⊕ ε) := Nat.cast_nonneg _
  unfold cellAll
  positivity

theorem xPath_bound (c : Nat → Nat → Cell (z ⊕ ε) p K) (l k : Nat) {d : K} (hd : 0 ≤ d) {q : z ⊕ ε → K} (h : Spec.Within d q) :
    Spec.Within (cellAll (c l k) * (1 + d)) (xPath c l k q 0) := by
  intro i
  have h0 : Spec.Near d (0 : z ⊕ ε → K) q := fun j => by simpa using h j
  have h1 := xPath_lipschitz c l k h0 i
  have h2 : |xPath c l k (0 : z ⊕ ε → K) 0 i| ≤ size1 (c l k).pterm + size1 (c l k).qterm := by
    rw [xPath_zero]
    have a1 := size1_nonneg (c l k).pterm
    have a2 := size1_nonneg (c l k).qterm
    rcases i with i | i
    · simp only [Sum.elim_inl, mulVec_zero, zero_add]
      have := abs_le_size1 (c l k).pterm i
      linarith
    · simp only [Sum.elim_inr, mulVec_zero, zero_add]
      have := abs_le_size1 (c l k).qterm (.inl i)
      linarith
  have h3 := abs_add_le (xPath c l k q 0 i - xPath c l k 0 0 i) (xPath c l k 0 0 i)
  rw [sub_add_cancel] at h3
  have h4 := size1_nonneg (c l k).pterm
  have h5 := size1_nonneg (c l k).qterm
  have h6 := cellSize_nonneg (c l k)
  have h7 : (0 : K) ≤ Fintype.card (z ⊕ ε) := Nat.cast_nonneg _
  have h8 : 0 ≤ (size1 (c l k).pterm + size1 (c l k).qterm) * d := by positivity
  have h9 : 0 ≤ cellSize (c l k) * Fintype.card (z ⊕ ε) := by positivity
  have h10 : cellAll (c l k) * (1 + d) = cellSize (c l k) * (Fintype.card (z ⊕ ε) * d) + (size1 (c l k).pterm + size1 (c l k).qterm)
      + ((size1 (c l k).pterm + size1 (c l k).qterm) * d + cellSize (c l k) * Fintype.card (z ⊕ ε)) := by
    unfold cellAll; ring
  linarith

theorem q0Of_within {d : K} {st : p ⊕ z → K} {e : ε → K} (h1 : Spec.Within d (fun i : z => st (.inr i))) (h2 : Spec.Within d e) :
    Spec.Within d (q0Of st e) := by
  rintro (i | i)
  · exact h1 i
  · exact h2 i

/-- **C168**, one step: for every solved model there is a factor `M` such that from states and shocks of size up to `d`, the transition always
succeeds and leads to a state of size up to `M (1 + d)`; with and without the constraint, whatever spell is found or imposed, and whatever the
error flag says. -/
theorem C168_transition_bounded (h : Succeeded lay orc lMax kMax sched mod) (hk : 0 < kMax) :
    ∃ M : K, 1 ≤ M ∧ ∀ (st : p ⊕ z → K) (e : ε → K) (d : K), Spec.Within d (fun i : z => st (.inr i)) → Spec.Within d e →
      (∀ linear, ∃ r, tFunc mod st e .none linear = .ok r ∧ Spec.Within (M * (1 + d)) r.state) ∧
      ∀ l k, l ≤ lMax → k ≤ kMax → ∃ r, tFunc mod st e (.pair l k) false = .ok r ∧ Spec.Within (M * (1 + d)) r.state := by
  obtain ⟨c, hm, hc⟩ := search_cases h hk
  have hz := h.states
  let M0 : K := ∑ l ∈ Finset.range (lMax + 1), ∑ k ∈ Finset.range (kMax + 1), cellAll (c l k)
  have hM0 : ∀ l ≤ lMax, ∀ k ≤ kMax, cellAll (c l k) ≤ M0 := fun l hl k hk =>
    (Finset.single_le_sum (f := fun k => cellAll (c l k)) (fun _ _ => cellAll_nonneg _) (Finset.mem_range.2 (by omega))).trans
      (Finset.single_le_sum (f := fun l => ∑ k ∈ Finset.range (kMax + 1), cellAll (c l k))
        (fun _ _ => Finset.sum_nonneg fun _ _ => cellAll_nonneg _) (Finset.mem_range.2 (by omega)))
  have hpos : 0 ≤ M0 := (cellAll_nonneg _).trans (hM0 0 (Nat.zero_le _) 0 (Nat.zero_le _))
  refine ⟨M0 + 1, by linarith, fun st e d h1 h2 => ?_⟩
  have hd : 0 ≤ d := (abs_nonneg _).trans (h1 (Classical.arbitrary z))
  have hw : ∀ l ≤ lMax, ∀ k ≤ kMax, Spec.Within ((M0 + 1) * (1 + d)) (xPath c l k (q0Of st e) 0) := by
    intro l hl k hk i
    refine (xPath_bound c l k hd (q0Of_within h1 h2) i).trans (mul_le_mul_of_nonneg_right ?_ (by linarith))
    have := hM0 l hl k hk
    linarith
  have hp : ∀ l k, l ≤ lMax → k ≤ kMax → ∃ r, tFunc mod st e (.pair l k) false = .ok r ∧ Spec.Within ((M0 + 1) * (1 + d)) r.state :=
    fun l k hl hk => ⟨_, tFunc_pair hm st e hl hk, hw l hl k hk⟩
  refine ⟨fun linear => ?_, hp⟩
  cases linear with
  | true => rw [tFunc_linear]; exact hp 0 0 (Nat.zero_le _) (Nat.zero_le _)
  | false =>
    obtain ⟨l, k, flag, a1, a2, a3, -⟩ := hc st e
    exact ⟨_, a3, hw l a1 k a2⟩

/-- **C168**: for every solved model there is a factor `M` such that a simulation from a state of size up to `d` with shocks of size up to `d` never
raises and is, after `i` periods, of size up to `M ^ i (1 + d)`: bounded over every horizon, whatever the shocks and the error flags. -/
theorem C168_simulations_bounded (h : Succeeded lay orc lMax kMax sched mod) (hk : 0 < kMax) :
    ∃ M : K, 1 ≤ M ∧ ∀ (linear : Bool) (es : List (ε → K)) (st : p ⊕ z → K) (d : K), Spec.Within d st → (∀ e ∈ es, Spec.Within d e) →
      ∃ res, simLoop mod linear st es = .ok res ∧ res.X.length = es.length + 1 ∧
        ∀ (i : Nat) s, res.X[i]? = some s → Spec.Within (M ^ i * (1 + d)) s := by
  obtain ⟨M, hM, hstep⟩ := C168_transition_bounded h hk
  have hz := h.states
  refine ⟨2 * M, by linarith, fun linear es => ?_⟩
  induction es with
  | nil =>
    intro st d hst _
    refine ⟨⟨[st], [], 0⟩, rfl, rfl, fun i s hi => ?_⟩
    cases i with
    | zero =>
      simp only [List.getElem?_cons_zero, Option.some.injEq] at hi
      subst hi
      intro j
      have := hst j
      simp only [pow_zero, one_mul]
      linarith
    | succ i => simp at hi
  | cons e es ih =>
    intro st d hst hes
    have hd : 0 ≤ d := (abs_nonneg _).trans (hst (.inr (Classical.arbitrary z)))
    obtain ⟨r, hr, hrb⟩ := (hstep st e d (fun i => hst (.inr i)) (hes e (by simp))).1 linear
    have hdM : d ≤ M * (1 + d) := by nlinarith
    obtain ⟨res, h1, h2, h3⟩ := ih r.state (M * (1 + d)) hrb (fun e' he' i => (hes e' (by simp [he']) i).trans hdM)
    refine ⟨⟨st :: res.X, (r.l, r.k) :: res.LK, r.flag ||| res.flag⟩, by simp only [simLoop, hr, h1], by simp [h2], fun i s hi => ?_⟩
    cases i with
    | zero =>
      simp only [List.getElem?_cons_zero, Option.some.injEq] at hi
      subst hi
      intro j
      have := hst j
      simp only [pow_zero, one_mul]
      linarith
    | succ i =>
      intro j
      refine (h3 i s (by simpa using hi) j).trans ?_
      rw [pow_succ, mul_assoc]
      refine mul_le_mul_of_nonneg_left ?_ (by positivity)
      nlinarith

/-- The hypotheses of C168 are met: the first example with tables up to `(0,1)`, the steady state and the shock `-3/2`. -/
theorem C168_hypotheses_met : ∃ mod, Succeeded Ex1.lay Ex1.orc 0 1 (serial 1) mod ∧ Spec.Within (3/2) (0 : Fin 1 ⊕ Fin 1 → Rat) ∧
    (∀ e ∈ [fun _ : Fin 1 => (-3/2 : Rat), fun _ => 0], Spec.Within (3/2) e) := by
  obtain ⟨mod, h⟩ := ex1_succeeds 0 1
  refine ⟨mod, h, fun i => by norm_num, ?_⟩
  intro e he i
  simp only [List.mem_cons, List.not_mem_nil, or_false] at he
  rcases he with rfl | rfl <;> norm_num [abs_of_neg]

end Pydsge
