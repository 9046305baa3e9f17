import Verif.Props.ContinuityEx
import Verif.Lemmas.Cover

/-!
# C177: where equilibria are unique, one constant bounds the effect of every change
-/

set_option autoImplicit false
set_option linter.unusedSectionVars false
set_option linter.unusedSimpArgs false

namespace Pydsge

open Matrix Pydsge.Engine Pydsge.Spec Pydsge.Tools Pydsge.GenSys

section
variable {E ν ε o K : Type} [Fintype E] [Fintype ν] [Fintype ε] [Fintype o]
  [DecidableEq E] [DecidableEq ν] [DecidableEq ε] [Field K] [LinearOrder K] [IsStrictOrderedRing K]
variable {H z p : Type} [DecidableEq H] [Fintype H] [Fintype z] [Fintype p] [DecidableEq z] [DecidableEq p]
variable {tol : K} {m : Input E ν ε o K} [DecidablePred (inall tol m)] {lay : Layout tol m H z p}
  {orc : Oracle (Rows E H ε) (z ⊕ ε) p K} {lMax kMax : Nat} {sched : Nat → List Nat} {mod : Model z ε p o K}

/-! ## Specification -/

/-- From this state, with this shock, the search succeeds and all spells that pass its tests agree. -/
def Spec.Regular (mod : Model z ε p o K) (lMax kMax : Nat) (st : p ⊕ z → K) (e : ε → K) : Prop :=
  (∃ r, tFunc mod st e .none false = .ok r ∧ r.flag = 0) ∧ Spec.Determined mod lMax kMax st e

/-- All mixtures of the two points are regular. -/
def Spec.RegularBetween (mod : Model z ε p o K) (lMax kMax : Nat) (st st' : p ⊕ z → K) (e e' : ε → K) : Prop :=
  ∀ t : K, 0 ≤ t → t ≤ 1 → Spec.Regular mod lMax kMax ((1 - t) • st + t • st') ((1 - t) • e + t • e')

/-! ## Along the segment between two points -/

theorem pathValue_span_le (f : Fun3 (z ⊕ ε) p K) (c : Nat → Nat → Cell (z ⊕ ε) p K) (q q' : z ⊕ ε → K) (l k s : Nat) (x : K) :
    IsSpan fun t : K => x ≤ pathValue f c ((1 - t) • q + t • q') l k s := by
  have : (fun t : K => x ≤ pathValue f c ((1 - t) • q + t • q') l k s) =
      fun t => x ≤ pathValue f c q l k s + t * (pathValue f c q' l k s - pathValue f c q l k s) := by
    funext t
    rw [pathValue_mix f c l k s (sub_add_cancel 1 t)]
    congr 1
    ring
  rw [this]
  exact isSpan_le _ _ _

theorem pathValue_span_ge (f : Fun3 (z ⊕ ε) p K) (c : Nat → Nat → Cell (z ⊕ ε) p K) (q q' : z ⊕ ε → K) (l k s : Nat) (x : K) :
    IsSpan fun t : K => pathValue f c ((1 - t) • q + t • q') l k s ≤ x := by
  have : (fun t : K => pathValue f c ((1 - t) • q + t • q') l k s ≤ x) =
      fun t => pathValue f c q l k s + t * (pathValue f c q' l k s - pathValue f c q l k s) ≤ x := by
    funext t
    rw [pathValue_mix f c l k s (sub_add_cancel 1 t)]
    congr 1
    ring
  rw [this]
  exact isSpan_ge _ _ _

theorem passAt_span (lay : Layout tol m H z p) (c : Nat → Nat → Cell (z ⊕ ε) p K) (q q' : z ⊕ ε → K) (lMax l k : Nat) :
    IsSpan fun t : K => PassAt lay c lMax l k ((1 - t) • q + t • q') := by
  unfold PassAt
  rcases Nat.eq_zero_or_pos k with rfl | hk
  · have : (fun t : K => (l = 0 ∧ (0 : Nat) = 0 ∧ ∀ j < lMax + 1, m.xbar ≤ pathValue (ff lay) c ((1 - t) • q + t • q') j 0 (slotPeriod j 0 2)) ∨
        Consistent (fun i l k => pathValue (ff lay) c ((1 - t) • q + t • q') l k (slotPeriod l k i)) m.xbar l 0) =
        fun t : K => l = 0 ∧ ∀ j < lMax + 1, m.xbar ≤ pathValue (ff lay) c ((1 - t) • q + t • q') j 0 (slotPeriod j 0 2) := by
      funext t
      refine propext ⟨fun h => ?_, fun h => .inl ⟨h.1, rfl, h.2⟩⟩
      rcases h with h | h
      · exact ⟨h.1, h.2.2⟩
      · exact absurd h.binds (by omega)
    rw [this]
    exact (isSpan_const _).and (isSpan_forall (fun j => pathValue_span_le _ _ _ _ _ _ _ _) _)
  · have : (fun t : K => (l = 0 ∧ k = 0 ∧ ∀ j < lMax + 1, m.xbar ≤ pathValue (ff lay) c ((1 - t) • q + t • q') j 0 (slotPeriod j 0 2)) ∨
        Consistent (fun i l k => pathValue (ff lay) c ((1 - t) • q + t • q') l k (slotPeriod l k i)) m.xbar l k) =
        fun t : K => Consistent (fun i l k => pathValue (ff lay) c ((1 - t) • q + t • q') l k (slotPeriod l k i)) m.xbar l k := by
      funext t
      exact propext ⟨fun h => h.elim (fun h => absurd h.2.1 (by omega)) id, .inr⟩
    rw [this]
    simp only [consistent_and]
    exact (isSpan_const _).and (((pathValue_span_le _ _ _ _ _ _ _ _).imp _).and (((pathValue_span_le _ _ _ _ _ _ _ _).imp _).and
      ((pathValue_span_le _ _ _ _ _ _ _ _).and ((pathValue_span_ge _ _ _ _ _ _ _ _).and ((pathValue_span_ge _ _ _ _ _ _ _ _).imp _)))))

/-- **C177.** There is a constant for the model such that, if all points between two pairs of states and shocks are regular, the transitions
differ by at most this constant times the difference of the (lagged) states and shocks, however large it is. -/
theorem C177_lipschitz (h : Succeeded lay orc lMax kMax sched mod) (hk : 0 < kMax) :
    ∃ M : K, 0 ≤ M ∧ ∀ (st st' : p ⊕ z → K) (e e' : ε → K) (r r' : Step z p K), Spec.RegularBetween mod lMax kMax st st' e e' →
      tFunc mod st e .none false = .ok r → tFunc mod st' e' .none false = .ok r' →
      ∀ d, Spec.Near d (fun i : z => st (.inr i)) (fun i => st' (.inr i)) → Spec.Near d e e' → Spec.Near (M * d) r.state r'.state := by
  classical
  obtain ⟨c, hm, hc⟩ := search_cases h hk
  have hz := h.states
  let N : K := Fintype.card (z ⊕ ε)
  have hN : 0 ≤ N := Nat.cast_nonneg _
  let C : K := ∑ l ∈ Finset.range (lMax + 1), ∑ k ∈ Finset.range (kMax + 1), cellSize (c l k)
  have hC : 0 ≤ C := Finset.sum_nonneg fun _ _ => Finset.sum_nonneg fun _ _ => cellSize_nonneg _
  have hCl : ∀ l k, l ≤ lMax → k ≤ kMax → cellSize (c l k) ≤ C := by
    intro l k hl hk'
    refine le_trans ?_ (Finset.single_le_sum (f := fun l => ∑ k ∈ Finset.range (kMax + 1), cellSize (c l k))
      (fun _ _ => Finset.sum_nonneg fun _ _ => cellSize_nonneg _) (Finset.mem_range.2 (Nat.lt_succ_of_le hl)))
    exact Finset.single_le_sum (f := fun k => cellSize (c l k)) (fun _ _ => cellSize_nonneg _) (Finset.mem_range.2 (Nat.lt_succ_of_le hk'))
  refine ⟨C * N, mul_nonneg hC hN, fun st st' e e' r r' hreg hr hr' d d1 d2 i => ?_⟩
  have hd : 0 ≤ d := by
    obtain ⟨i0⟩ := hz
    exact (abs_nonneg _).trans (d1 i0)
  have hq := near_q0 d1 d2
  set q := q0Of st e with hqd
  set q' := q0Of st' e' with hqd'
  have hmix : ∀ t : K, q0Of ((1 - t) • st + t • st') ((1 - t) • e + t • e') = (1 - t) • q + t • q' := fun t => q0Of_mix _ _ _ _ _ _
  -- the transition along the segment
  let f : K → Step z p K := fun t => if ht : 0 ≤ t ∧ t ≤ 1 then (hreg t ht.1 ht.2).1.choose else r
  have hf : ∀ t, 0 ≤ t → t ≤ 1 → tFunc mod ((1 - t) • st + t • st') ((1 - t) • e + t • e') .none false = .ok (f t) ∧ (f t).flag = 0 := by
    intro t h0 h1
    simp only [f, dif_pos (And.intro h0 h1)]
    exact (hreg t h0 h1).1.choose_spec
  -- on each piece it is the piece
  have hpiece : ∀ l k, l ≤ lMax → k ≤ kMax → ∀ t, 0 ≤ t → t ≤ 1 → PassAt lay c lMax l k ((1 - t) • q + t • q') →
      (f t).state = xPath c l k ((1 - t) • q + t • q') 0 := by
    intro l k hl hk' t h0 h1 hp
    obtain ⟨l', k', flag, a1, a2, a3, -, a4⟩ := hc ((1 - t) • st + t • st') ((1 - t) • e + t • e')
    obtain ⟨g1, g2⟩ := hf t h0 h1
    rw [a3] at g1
    have g3 := Except.ok.inj g1
    rw [← g3] at g2 ⊢
    have p1 := found_passes g2 a4
    have := (hreg t h0 h1).2 l' k' l k a1 a2 hl hk' ((passes_iff hm _ _ a1 a2).2 p1) ((passes_iff hm _ _ hl hk').2 (by rw [hmix]; exact hp)) _ _
      (tFunc_pair hm _ _ a1 a2) (tFunc_pair hm _ _ hl hk')
    simp only at this
    rw [this, hmix]
  have key := chain_spans (fun (lk : Nat × Nat) t => PassAt lay c lMax lk.1 lk.2 ((1 - t) • q + t • q'))
    (Finset.range (lMax + 1) ×ˢ Finset.range (kMax + 1)) (fun lk _ => passAt_span lay c q q' lMax lk.1 lk.2) (fun t h0 h1 => ?_)
    (fun t => (f t).state i) (L := C * N * d) (fun lk hlk s t h0 hst h1 hp1 hp2 => ?_)
  · have e0 : (f 0).state = r.state := by
      have := (hf 0 le_rfl zero_le_one).1
      simp only [sub_zero, one_smul, zero_smul, add_zero] at this
      rw [hr] at this
      rw [Except.ok.inj this]
    have e1 : (f 1).state = r'.state := by
      have := (hf 1 zero_le_one le_rfl).1
      simp only [sub_self, one_smul, zero_smul, zero_add] at this
      rw [hr'] at this
      rw [Except.ok.inj this]
    simp only [e0, e1] at key
    exact key
  · obtain ⟨l, k, flag, a1, a2, a3, -, a4⟩ := hc ((1 - t) • st + t • st') ((1 - t) • e + t • e')
    obtain ⟨g1, g2⟩ := hf t h0 h1
    rw [a3] at g1
    have g3 := Except.ok.inj g1
    rw [← g3] at g2
    have p1 := found_passes g2 a4
    rw [hmix] at p1
    exact ⟨(l, k), Finset.mem_product.2 ⟨Finset.mem_range.2 (by simp only; omega), Finset.mem_range.2 (by simp only; omega)⟩, p1⟩
  · obtain ⟨hl, hk'⟩ := Finset.mem_product.1 hlk
    have hl' : lk.1 ≤ lMax := by have := Finset.mem_range.1 hl; omega
    have hk'' : lk.2 ≤ kMax := by have := Finset.mem_range.1 hk'; omega
    rw [hpiece lk.1 lk.2 hl' hk'' s h0 (hst.trans h1) hp1, hpiece lk.1 lk.2 hl' hk'' t (h0.trans hst) h1 hp2]
    have hnear : Spec.Near ((t - s) * d) ((1 - s) • q + s • q') ((1 - t) • q + t • q') := by
      intro j
      have e : ((1 - t) • q + t • q') j - ((1 - s) • q + s • q') j = (t - s) * (q' j - q j) := by
        simp only [Pi.add_apply, Pi.smul_apply, smul_eq_mul]
        ring
      rw [e, abs_mul, abs_of_nonneg (sub_nonneg.2 hst)]
      exact mul_le_mul_of_nonneg_left (hq j) (sub_nonneg.2 hst)
    refine (xPath_lipschitz c lk.1 lk.2 hnear i).trans ?_
    have h5 : 0 ≤ N * ((t - s) * d) := mul_nonneg hN (mul_nonneg (sub_nonneg.2 hst) hd)
    refine (mul_le_mul_of_nonneg_right (hCl lk.1 lk.2 hl' hk'') h5).trans (le_of_eq ?_)
    ring

/-- **C177**, simulations: if the pairs of states and shocks of the periods of two simulations have only regular points between them, the
states after `n` periods differ by at most `M ^ n` times the difference of initial states and shocks. -/
theorem C177_simulations (h : Succeeded lay orc lMax kMax sched mod) (hk : 0 < kMax) : ∃ M : K, 1 ≤ M ∧
    ∀ (es es' : List (ε → K)) (st st' : p ⊕ z → K) (res res' : SimRes z p K), simLoop mod false st es = .ok res →
      simLoop mod false st' es' = .ok res' →
      (∀ (i : Nat) s s' e e', res.X[i]? = some s → res'.X[i]? = some s' → es[i]? = some e → es'[i]? = some e' →
        Spec.RegularBetween mod lMax kMax s s' e e') →
      ∀ d, Spec.Near d st st' → List.Forall₂ (Spec.Near d) es es' →
        ∀ (i : Nat) s s', res.X[i]? = some s → res'.X[i]? = some s' → Spec.Near (M ^ i * d) s s' := by
  obtain ⟨M, hM, hlip⟩ := C177_lipschitz h hk
  refine ⟨max 1 M, le_max_left _ _, ?_⟩
  have hz := h.states
  intro es
  induction es with
  | nil =>
    intro es' st st' res res' h1 h2 hreg d hd hes i s s' hs hs'
    cases hes
    simp only [simLoop, Except.ok.injEq] at h1 h2
    subst h1 h2
    match i with
    | 0 =>
      simp only [List.getElem?_cons_zero, Option.some.injEq] at hs hs'
      subst hs hs'
      simpa using hd
    | i + 1 => simp at hs
  | cons e es ih =>
    intro es' st st' res res' h1 h2 hreg d hd hes i s s' hs hs'
    cases hes with
    | @cons _ e' _ es'' hn1 hn2 =>
      simp only [simLoop] at h1 h2
      cases hr : tFunc mod st e .none false with
      | error err => rw [hr] at h1; cases h1
      | ok r =>
        cases hr' : tFunc mod st' e' .none false with
        | error err => rw [hr'] at h2; cases h2
        | ok r' =>
          rw [hr] at h1
          rw [hr'] at h2
          cases hs1 : simLoop mod false r.state es with
          | error err => simp only [hs1] at h1; cases h1
          | ok res1 =>
            cases hs2 : simLoop mod false r'.state es'' with
            | error err => simp only [hs2] at h2; cases h2
            | ok res2 =>
              simp only [hs1, Except.ok.injEq] at h1
              simp only [hs2, Except.ok.injEq] at h2
              subst h1 h2
              have hd0 : 0 ≤ d := by
                obtain ⟨i0⟩ := hz
                exact (abs_nonneg _).trans (hd (.inr i0))
              match i with
              | 0 =>
                simp only [List.getElem?_cons_zero, Option.some.injEq] at hs hs'
                subst hs hs'
                simpa using hd
              | i + 1 =>
                have hstep : Spec.Near (max 1 M * d) r.state r'.state :=
                  (hlip st st' e e' r r' (hreg 0 st st' e e' (by simp) (by simp) (by simp) (by simp)) hr hr' d (fun i => hd (.inr i)) hn1).mono
                    (mul_le_mul_of_nonneg_right (le_max_right _ _) hd0)
                have hes' : List.Forall₂ (Spec.Near (max 1 M * d)) es es'' := hn2.imp fun _ _ hab => hab.mono (by
                  have := mul_le_mul_of_nonneg_right (le_max_left 1 M) hd0
                  linarith)
                have := ih es'' r.state r'.state res1 res2 hs1 hs2 (fun j a a' b b' ha ha' hb hb' =>
                  hreg (j + 1) a a' b b' (by simpa using ha) (by simpa using ha') (by simpa using hb) (by simpa using hb')) _ hstep hes' i s s'
                  (by simpa using hs) (by simpa using hs')
                rw [pow_succ, mul_assoc]
                exact this

end
end Pydsge
