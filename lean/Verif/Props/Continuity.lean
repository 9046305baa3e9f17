import Verif.Props.Convex

/-!
# C153: nearby states and shocks have nearby transitions
-/

set_option autoImplicit false
set_option linter.unusedSectionVars false
set_option linter.unusedSimpArgs false

namespace Pydsge

open Matrix Pydsge.Engine Pydsge.Spec Pydsge.Tools Pydsge.GenSys

/-! ## Predicates that fail in a neighbourhood of each point at which they fail -/

section Closed
variable {κ K : Type} [Fintype κ] [Field K] [LinearOrder K] [IsStrictOrderedRing K]

/-- `q'` differs from `q` by at most `δ` in each entry. -/
def Spec.Near (δ : K) (q q' : κ → K) : Prop := ∀ i, |q' i - q i| ≤ δ

/-- If the predicate fails, it fails nearby, too. -/
def FailsOpenly (P : (κ → K) → Prop) : Prop := ∀ q, ¬ P q → ∃ δ > 0, ∀ q', Spec.Near δ q q' → ¬ P q'

theorem Spec.Near.mono {δ δ' : K} {q q' : κ → K} (h : Spec.Near δ q q') (hd : δ ≤ δ') : Spec.Near δ' q q' := fun i => (h i).trans hd

theorem near_dot {δ : K} {q q' : κ → K} (w : κ → K) (h : Spec.Near δ q q') : |w ⬝ᵥ q' - w ⬝ᵥ q| ≤ size1 w * (Fintype.card κ * δ) := by
  rw [← dotProduct_sub]
  exact (abs_dot w _).trans (mul_le_mul_of_nonneg_left (size1_within h) (size1_nonneg w))

theorem failsOpenly_le (w : κ → K) (t x : K) : FailsOpenly fun q => x ≤ w ⬝ᵥ q + t := by
  intro q hq
  have hq : w ⬝ᵥ q + t < x := not_le.1 hq
  have hs := size1_nonneg w
  have hn : (0 : K) ≤ Fintype.card κ := Nat.cast_nonneg _
  have hpos : 0 < size1 w * Fintype.card κ + 1 := by positivity
  refine ⟨(x - (w ⬝ᵥ q + t)) / (size1 w * Fintype.card κ + 1) / 2, by have := sub_pos.2 hq; positivity, fun q' hn' => not_le.2 ?_⟩
  have h1 := near_dot w hn'
  generalize hδ : (x - (w ⬝ᵥ q + t)) / (size1 w * Fintype.card κ + 1) / 2 = δ at h1
  have hδ' : (size1 w * Fintype.card κ + 1) * δ = (x - (w ⬝ᵥ q + t)) / 2 := by rw [← hδ]; field_simp
  have hδ0 : 0 < δ := by rw [← hδ]; have := sub_pos.2 hq; positivity
  have h2 := (abs_le.1 h1).2
  have h3 : size1 w * (Fintype.card κ * δ) + δ = (x - (w ⬝ᵥ q + t)) / 2 := by rw [← hδ']; ring
  linarith

theorem failsOpenly_ge (w : κ → K) (t x : K) : FailsOpenly fun q => w ⬝ᵥ q + t ≤ x := by
  have := failsOpenly_le (-w) (-t) (-x)
  intro q hq
  obtain ⟨δ, h1, h2⟩ := this q (fun h => hq (by
    replace h : -x ≤ -w ⬝ᵥ q + -t := h
    show w ⬝ᵥ q + t ≤ x
    rw [neg_dotProduct] at h
    linarith))
  refine ⟨δ, h1, fun q' hn h => h2 q' hn ?_⟩
  replace h : w ⬝ᵥ q' + t ≤ x := h
  show -x ≤ -w ⬝ᵥ q' + -t
  rw [neg_dotProduct]
  linarith

theorem FailsOpenly.and {P Q : (κ → K) → Prop} (hP : FailsOpenly P) (hQ : FailsOpenly Q) : FailsOpenly fun q => P q ∧ Q q := by
  intro q hq
  by_cases h : P q
  · obtain ⟨δ, h1, h2⟩ := hQ q fun h' => hq ⟨h, h'⟩
    exact ⟨δ, h1, fun q' hn h' => h2 q' hn h'.2⟩
  · obtain ⟨δ, h1, h2⟩ := hP q h
    exact ⟨δ, h1, fun q' hn h' => h2 q' hn h'.1⟩

theorem FailsOpenly.imp {P : (κ → K) → Prop} (c : Prop) (hP : FailsOpenly P) : FailsOpenly fun q => c → P q := by
  intro q hq
  by_cases hc : c
  · obtain ⟨δ, h1, h2⟩ := hP q fun h' => hq fun _ => h'
    exact ⟨δ, h1, fun q' hn h' => h2 q' hn (h' hc)⟩
  · exact absurd (fun h => absurd h hc) hq

theorem failsOpenly_const (c : Prop) : FailsOpenly (fun _ : κ → K => c) := fun _ hq => ⟨1, one_pos, fun _ _ => hq⟩

theorem FailsOpenly.or {P Q : (κ → K) → Prop} (hP : FailsOpenly P) (hQ : FailsOpenly Q) : FailsOpenly fun q => P q ∨ Q q := by
  intro q hq
  obtain ⟨δ, h1, h2⟩ := hP q fun h' => hq (.inl h')
  obtain ⟨δ', h1', h2'⟩ := hQ q fun h' => hq (.inr h')
  refine ⟨min δ δ', lt_min h1 h1', fun q' hn h' => ?_⟩
  rcases h' with h' | h'
  · exact h2 q' (hn.mono (min_le_left _ _)) h'
  · exact h2' q' (hn.mono (min_le_right _ _)) h'

theorem failsOpenly_forall {P : Nat → (κ → K) → Prop} (hP : ∀ n, FailsOpenly (P n)) (N : Nat) : FailsOpenly fun q => ∀ n < N, P n q := by
  intro q hq
  simp only [not_forall] at hq
  obtain ⟨n, hn, h⟩ := hq
  obtain ⟨δ, h1, h2⟩ := hP n q h
  exact ⟨δ, h1, fun q' hn' h' => h2 q' hn' (h' n hn)⟩

/-- One neighbourhood for finitely many predicates. -/
theorem failsOpenly_uniform {P : Nat → (κ → K) → Prop} (hP : ∀ n, FailsOpenly (P n)) (q : κ → K) (N : Nat) :
    ∃ δ > 0, ∀ n < N, ¬ P n q → ∀ q', Spec.Near δ q q' → ¬ P n q' := by
  induction N with
  | zero => exact ⟨1, one_pos, fun n hn => absurd hn (by omega)⟩
  | succ N ih =>
    obtain ⟨δ, h1, h2⟩ := ih
    by_cases hN : P N q
    · refine ⟨δ, h1, fun n hn hq => ?_⟩
      rcases Nat.lt_succ_iff_lt_or_eq.1 hn with h | rfl
      · exact h2 n h hq
      · exact absurd hN hq
    · obtain ⟨δ', h1', h2'⟩ := hP N q hN
      refine ⟨min δ δ', lt_min h1 h1', fun n hn hq q' hn' => ?_⟩
      rcases Nat.lt_succ_iff_lt_or_eq.1 hn with h | rfl
      · exact h2 n h hq q' (hn'.mono (min_le_left _ _))
      · exact h2' q' (hn'.mono (min_le_right _ _))

end Closed

variable {E ν ε o K : Type} [Fintype E] [Fintype ν] [Fintype ε] [Fintype o]
  [DecidableEq E] [DecidableEq ν] [DecidableEq ε] [Field K] [LinearOrder K] [IsStrictOrderedRing K]
variable {H z p : Type} [DecidableEq H] [Fintype H] [Fintype z] [Fintype p] [DecidableEq z] [DecidableEq p]
variable {tol : K} {m : Input E ν ε o K} [DecidablePred (inall tol m)] {lay : Layout tol m H z p}
  {orc : Oracle (Rows E H ε) (z ⊕ ε) p K} {lMax kMax : Nat} {sched : Nat → List Nat} {mod : Model z ε p o K}

/-! ## Specification -/

/-- Spell `(l,k)` passes the tests of the search, or (`(0,0)`) the constraint is nowhere violated without a spell. -/
def Spec.Passes (mod : Model z ε p o K) (lMax kMax : Nat) (st : p ⊕ z → K) (e : ε → K) (l k : Nat) : Prop :=
  ∃ v, Describes mod.tables mod.ff mod.xbar (q0Of st e) lMax kMax v ∧
    ((l = 0 ∧ k = 0 ∧ ∀ j ≤ lMax, mod.xbar ≤ v 2 j 0) ∨ Consistent v mod.xbar l k)

/-- All spells that pass lead to the same state. -/
def Spec.Determined (mod : Model z ε p o K) (lMax kMax : Nat) (st : p ⊕ z → K) (e : ε → K) : Prop :=
  ∀ l k l' k', l ≤ lMax → k ≤ kMax → l' ≤ lMax → k' ≤ kMax → Spec.Passes mod lMax kMax st e l k → Spec.Passes mod lMax kMax st e l' k' →
    ∀ r r', tFunc mod st e (.pair l k) false = .ok r → tFunc mod st e (.pair l' k') false = .ok r' → r.state = r'.state

/-! ## Passing is a closed condition -/

/-- `Passes` in terms of the cells. -/
def PassAt (lay : Layout tol m H z p) (c : Nat → Nat → Cell (z ⊕ ε) p K) (lMax l k : Nat) (q0 : z ⊕ ε → K) : Prop :=
  (l = 0 ∧ k = 0 ∧ ∀ j < lMax + 1, m.xbar ≤ pathValue (ff lay) c q0 j 0 (slotPeriod j 0 2)) ∨
    Consistent (fun i l k => pathValue (ff lay) c q0 l k (slotPeriod l k i)) m.xbar l k

theorem passes_iff {c : Nat → Nat → Cell (z ⊕ ε) p K} (hm : SolvedModel lay orc lMax kMax mod c) (st : p ⊕ z → K) (e : ε → K) {l k : Nat}
    (hl : l ≤ lMax) (hk : k ≤ kMax) : Spec.Passes mod lMax kMax st e l k ↔ PassAt lay c lMax l k (q0Of st e) := by
  obtain ⟨M', hS⟩ := hm.eng
  unfold Spec.Passes PassAt
  rw [hm.ff, hm.xbar]
  constructor
  · rintro ⟨v, hv, h⟩
    rw [describes_iff hS] at hv
    rcases h with ⟨h1, h2, h3⟩ | h
    · refine .inl ⟨h1, h2, fun j hj => ?_⟩
      rw [← hv 2 j 0 (by omega) (by omega)]
      exact h3 j (by omega)
    · refine .inr ⟨h.binds, fun h' => ?_, fun h' => ?_, ?_, ?_, fun h' => ?_⟩
      · show _ ≤ pathValue _ _ _ _ _ _
        rw [← hv 0 l k hl hk]; exact h.start h'
      · show _ ≤ pathValue _ _ _ _ _ _
        rw [← hv 1 l k hl hk]; exact h.before h'
      · show _ ≤ pathValue _ _ _ _ _ _
        rw [← hv 4 l k hl hk]; exact h.exit
      · show pathValue _ _ _ _ _ _ ≤ _
        rw [← hv 2 l k hl hk]; exact h.first
      · show pathValue _ _ _ _ _ _ ≤ _
        rw [← hv 3 l k hl hk]; exact h.last h'
  · intro h
    refine ⟨_, (describes_iff hS _ _ _).2 (fun _ _ _ _ _ => rfl), ?_⟩
    rcases h with ⟨h1, h2, h3⟩ | h
    · exact .inl ⟨h1, h2, fun j hj => h3 j (by omega)⟩
    · exact .inr h

theorem failsOpenly_value_le (f : Fun3 (z ⊕ ε) p K) (c : Nat → Nat → Cell (z ⊕ ε) p K) (l k s : Nat) (x : K) :
    FailsOpenly fun q => x ≤ pathValue f c q l k s := by
  have : (fun q => x ≤ pathValue f c q l k s) = fun q => x ≤ (rowAt f c l k s).1 ⬝ᵥ q + (rowAt f c l k s).2 := by
    funext q; rw [rowAt_value f c l k s q]; rfl
  rw [this]
  exact failsOpenly_le _ _ _

theorem failsOpenly_value_ge (f : Fun3 (z ⊕ ε) p K) (c : Nat → Nat → Cell (z ⊕ ε) p K) (l k s : Nat) (x : K) :
    FailsOpenly fun q => pathValue f c q l k s ≤ x := by
  have : (fun q => pathValue f c q l k s ≤ x) = fun q => (rowAt f c l k s).1 ⬝ᵥ q + (rowAt f c l k s).2 ≤ x := by
    funext q; rw [rowAt_value f c l k s q]; rfl
  rw [this]
  exact failsOpenly_ge _ _ _

theorem consistent_and {v : Fin 5 → Nat → Nat → K} {x : K} {l k : Nat} : Consistent v x l k ↔
    1 ≤ k ∧ (1 ≤ l → x ≤ v 0 l k) ∧ (2 ≤ l → x ≤ v 1 l k) ∧ x ≤ v 4 l k ∧ v 2 l k ≤ x ∧ (2 ≤ k → v 3 l k ≤ x) :=
  ⟨fun h => ⟨h.binds, h.start, h.before, h.exit, h.first, h.last⟩, fun ⟨a, b, c, d, e, f⟩ => ⟨a, b, c, d, e, f⟩⟩

theorem passAt_failsOpenly (lay : Layout tol m H z p) (c : Nat → Nat → Cell (z ⊕ ε) p K) (lMax l k : Nat) :
    FailsOpenly (PassAt lay c lMax l k) := by
  unfold PassAt
  refine .or ((failsOpenly_const _).and ((failsOpenly_const _).and (failsOpenly_forall (fun j => failsOpenly_value_le _ _ _ _ _ _) _))) ?_
  simp only [consistent_and]
  exact (failsOpenly_const _).and (((failsOpenly_value_le _ _ _ _ _ _).imp _).and (((failsOpenly_value_le _ _ _ _ _ _).imp _).and
    ((failsOpenly_value_le _ _ _ _ _ _).and ((failsOpenly_value_ge _ _ _ _ _ _).and ((failsOpenly_value_ge _ _ _ _ _ _).imp _)))))

/-! ## The theorem -/

/-- the size of the coefficients of one cell -/
def cellSize (c : Cell (z ⊕ ε) p K) : K := msize c.pmat + msize c.qmat

theorem cellSize_nonneg (c : Cell (z ⊕ ε) p K) : 0 ≤ cellSize c := add_nonneg (msize_nonneg _) (msize_nonneg _)

theorem xPath_lipschitz (c : Nat → Nat → Cell (z ⊕ ε) p K) (l k : Nat) {d : K} {q q' : z ⊕ ε → K} (h : Spec.Near d q q') (i : p ⊕ z) :
    |xPath c l k q' 0 i - xPath c l k q 0 i| ≤ cellSize (c l k) * (Fintype.card (z ⊕ ε) * d) := by
  have h0 : size1 (q' - q) ≤ Fintype.card (z ⊕ ε) * d := size1_within h
  have hn := size1_nonneg (q' - q)
  have hp := msize_nonneg (c l k).pmat
  have hq := msize_nonneg (c l k).qmat
  rw [xPath_zero, xPath_zero]
  rcases i with i | i
  · have e : ((c l k).pmat *ᵥ q' + (c l k).pterm) i - ((c l k).pmat *ᵥ q + (c l k).pterm) i = ((c l k).pmat *ᵥ (q' - q)) i := by
      rw [mulVec_sub]; simp
    simp only [Sum.elim_inl]
    rw [e]
    refine ((abs_le_size1 _ i).trans (size1_mulVec _ _)).trans ?_
    refine (mul_le_mul_of_nonneg_left h0 hp).trans (mul_le_mul_of_nonneg_right ?_ (hn.trans h0))
    unfold cellSize
    linarith
  · have e : ((c l k).qmat *ᵥ q' + (c l k).qterm) (.inl i) - ((c l k).qmat *ᵥ q + (c l k).qterm) (.inl i) = ((c l k).qmat *ᵥ (q' - q)) (.inl i) := by
      rw [mulVec_sub]; simp
    simp only [Sum.elim_inr]
    rw [e]
    refine ((abs_le_size1 _ _).trans (size1_mulVec _ _)).trans ?_
    refine (mul_le_mul_of_nonneg_left h0 hq).trans (mul_le_mul_of_nonneg_right ?_ (hn.trans h0))
    unfold cellSize
    linarith

theorem near_q0 {d : K} {st st' : p ⊕ z → K} {e e' : ε → K} (h1 : Spec.Near d (fun i => st (.inr i)) (fun i : z => st' (.inr i)))
    (h2 : Spec.Near d e e') : Spec.Near d (q0Of st e) (q0Of st' e') := by
  rintro (i | i)
  · exact h1 i
  · exact h2 i

/-- The spell that is found without a flag passes. -/
theorem found_passes {c : Nat → Nat → Cell (z ⊕ ε) p K} {st : p ⊕ z → K} {e : ε → K} {l k flag : Nat} (hf : flag = 0)
    (h : (l = 0 ∧ k = 0 ∧ flag = 0 ∧ NeverBinds (valuesAt lay c st e) m.xbar (lMax + 1)) ∨
        (flag = 0 ∧ Consistent (valuesAt lay c st e) m.xbar l k) ∨ (l = 0 ∧ 0 < k ∧ flag ≠ 0)) : PassAt lay c lMax l k (q0Of st e) := by
  rcases h with ⟨h1, h2, -, h3⟩ | ⟨-, h⟩ | h
  · exact .inl ⟨h1, h2, fun j hj => (h3 j hj).le⟩
  · exact .inr h
  · exact absurd hf h.2.2

/-- **C153 (partial).** There is a constant `M` for the model such that around every state and shock at which the search succeeds and all spells
that pass its tests agree, the transition changes by at most `M` times the change of states and shocks, as long as the search succeeds.

Missing: states at which spells that pass do not agree (`C153_continuous_refuted`). -/
theorem C153_locally_lipschitz_partial (h : Succeeded lay orc lMax kMax sched mod) (hk : 0 < kMax) :
    ∃ M : K, 0 ≤ M ∧ ∀ (st : p ⊕ z → K) (e : ε → K) (r : Step z p K), tFunc mod st e .none false = .ok r → r.flag = 0 →
      Spec.Determined mod lMax kMax st e → ∃ δ > 0, ∀ (st' : p ⊕ z → K) (e' : ε → K) (r' : Step z p K),
        Spec.Near δ (fun i : z => st (.inr i)) (fun i => st' (.inr i)) → Spec.Near δ e e' →
        tFunc mod st' e' .none false = .ok r' → r'.flag = 0 → ∀ d, Spec.Near d (fun i : z => st (.inr i)) (fun i => st' (.inr i)) →
        Spec.Near d e e' → Spec.Near (M * d) r.state r'.state := by
  obtain ⟨c, hm, hc⟩ := search_cases h hk
  have hz := h.states
  let N : K := Fintype.card (z ⊕ ε)
  have hN : 0 ≤ N := Nat.cast_nonneg _
  let C : K := ∑ l ∈ Finset.range (lMax + 1), ∑ k ∈ Finset.range (kMax + 1), cellSize (c l k)
  have hC : 0 ≤ C := Finset.sum_nonneg fun _ _ => Finset.sum_nonneg fun _ _ => cellSize_nonneg _
  have hCl : ∀ l k, l ≤ lMax → k ≤ kMax → cellSize (c l k) ≤ C := by
    intro l k hl hk'
    refine le_trans ?_ (Finset.single_le_sum (f := fun l => ∑ k ∈ Finset.range (kMax + 1), cellSize (c l k))
      (fun _ _ => Finset.sum_nonneg fun _ _ => cellSize_nonneg _) (Finset.mem_range.2 (Nat.lt_succ_of_le hl)))
    exact Finset.single_le_sum (f := fun k => cellSize (c l k)) (fun _ _ => cellSize_nonneg _) (Finset.mem_range.2 (Nat.lt_succ_of_le hk'))
  refine ⟨C * N, mul_nonneg hC hN, fun st e r hr hf hdet => ?_⟩
  have huni : ∃ δ > 0, ∀ l k, l ≤ lMax → k ≤ kMax → ¬ PassAt lay c lMax l k (q0Of st e) → ∀ q', Spec.Near δ (q0Of st e) q' →
      ¬ PassAt lay c lMax l k q' := by
    obtain ⟨δ, h1, h2⟩ := failsOpenly_uniform (P := fun n q => PassAt lay c lMax (n / (kMax + 1)) (n % (kMax + 1)) q)
      (fun n => passAt_failsOpenly lay c lMax _ _) (q0Of st e) ((lMax + 1) * (kMax + 1))
    refine ⟨δ, h1, fun l k hl hk' => ?_⟩
    have hlt : (kMax + 1) * l + k < (lMax + 1) * (kMax + 1) := by nlinarith
    have hd1 : ((kMax + 1) * l + k) / (kMax + 1) = l := by
      rw [Nat.mul_add_div (by omega), Nat.div_eq_of_lt (by omega), Nat.add_zero]
    have hd2 : ((kMax + 1) * l + k) % (kMax + 1) = k := by
      rw [Nat.mul_add_mod, Nat.mod_eq_of_lt (by omega)]
    have := h2 _ hlt
    simpa only [hd1, hd2] using this
  obtain ⟨δ, hδ, hpass⟩ := huni
  refine ⟨δ, hδ, fun st' e' r' n1 n2 hr' hf' d d1 d2 i => ?_⟩
  obtain ⟨l, k, flag, a1, a2, a3, -, a4⟩ := hc st e
  obtain ⟨l', k', flag', b1, b2, b3, -, b4⟩ := hc st' e'
  rw [a3] at hr
  rw [b3] at hr'
  cases hr
  cases hr'
  simp only at hf hf' ⊢
  have p1 := found_passes hf a4
  have p2 := found_passes hf' b4
  have p3 : PassAt lay c lMax l' k' (q0Of st e) := by
    by_contra hno
    exact hpass l' k' b1 b2 hno _ (near_q0 n1 n2) p2
  have heq := hdet l k l' k' a1 a2 b1 b2 ((passes_iff hm st e a1 a2).2 p1) ((passes_iff hm st e b1 b2).2 p3) _ _
    (tFunc_pair hm st e a1 a2) (tFunc_pair hm st e b1 b2)
  simp only at heq
  rw [heq]
  refine (xPath_lipschitz c l' k' (near_q0 d1 d2) i).trans ?_
  have hd : 0 ≤ d := by
    obtain ⟨i0⟩ := hz
    exact (abs_nonneg _).trans (d1 i0)
  rw [mul_assoc]
  exact mul_le_mul_of_nonneg_right (hCl l' k' b1 b2) (mul_nonneg hN hd)

/-- **C153 (partial)**, simulations: if every transition of a simulation succeeds and is determined, nearby initial states and shocks give nearby
simulations, if these succeed. -/
theorem C153_simulations_partial (h : Succeeded lay orc lMax kMax sched mod) (hk : 0 < kMax) :
    ∀ (es : List (ε → K)) (st : p ⊕ z → K) (res : SimRes z p K), simLoop mod false st es = .ok res → res.flag = 0 →
      (∀ (i : Nat) s e, res.X[i]? = some s → es[i]? = some e → Spec.Determined mod lMax kMax s e) →
      ∀ η > 0, ∃ δ > 0, ∀ (st' : p ⊕ z → K) (es' : List (ε → K)) (res' : SimRes z p K), Spec.Near δ st st' →
        List.Forall₂ (Spec.Near δ) es es' → simLoop mod false st' es' = .ok res' → res'.flag = 0 → List.Forall₂ (Spec.Near η) res.X res'.X
  | [], st, res, h1, _, _, η, hη => by
    simp only [simLoop] at h1
    cases h1
    refine ⟨η, hη, fun st' es' res' hn he h2 _ => ?_⟩
    cases he
    simp only [simLoop] at h2
    cases h2
    exact .cons hn .nil
  | e :: es, st, res, h1, hf, hdet, η, hη => by
    simp only [simLoop] at h1
    cases hr : tFunc mod st e .none false with
    | error err => rw [hr] at h1; cases h1
    | ok r =>
      rw [hr] at h1
      cases hs : simLoop mod false r.state es with
      | error err => simp only [hs] at h1; cases h1
      | ok res1 =>
        simp only [hs, Except.ok.injEq] at h1
        subst h1
        simp only [Nat.or_eq_zero_iff] at hf
        obtain ⟨δ1, hδ1, ih⟩ := C153_simulations_partial h hk es r.state res1 hs hf.2
          (fun i s e' hi he => hdet (i + 1) s e' (by simpa using hi) (by simpa using he)) η hη
        obtain ⟨M, hM, hloc⟩ := C153_locally_lipschitz_partial h hk
        obtain ⟨δ2, hδ2, hstep⟩ := hloc st e r hr hf.1 (hdet 0 st e (by simp) (by simp))
        have hM1 : 0 < M + 1 := by linarith
        refine ⟨min (min δ1 η) (min δ2 (δ1 / (M + 1))), by positivity, fun st' es' res' hn he h2 hf' => ?_⟩
        cases he with
        | @cons _ e' _ es'' hn1 hn2 =>
          simp only [simLoop] at h2
          cases hr' : tFunc mod st' e' .none false with
          | error err => rw [hr'] at h2; cases h2
          | ok r' =>
            rw [hr'] at h2
            cases hs' : simLoop mod false r'.state es'' with
            | error err => simp only [hs'] at h2; cases h2
            | ok res2 =>
              simp only [hs', Except.ok.injEq] at h2
              subst h2
              simp only [Nat.or_eq_zero_iff] at hf'
              have m1 : min (min δ1 η) (min δ2 (δ1 / (M + 1))) ≤ δ1 := (min_le_left _ _).trans (min_le_left _ _)
              have m2 : min (min δ1 η) (min δ2 (δ1 / (M + 1))) ≤ η := (min_le_left _ _).trans (min_le_right _ _)
              have m3 : min (min δ1 η) (min δ2 (δ1 / (M + 1))) ≤ δ2 := (min_le_right _ _).trans (min_le_left _ _)
              have m4 : min (min δ1 η) (min δ2 (δ1 / (M + 1))) ≤ δ1 / (M + 1) := (min_le_right _ _).trans (min_le_right _ _)
              refine .cons (hn.mono m2) (ih r'.state es'' res2 ?_ ?_ hs' hf'.2)
              · have hq := hstep st' e' r' (fun i => (hn (.inr i)).trans m3) (hn1.mono m3) hr' hf'.1 (δ1 / (M + 1))
                  (fun i => (hn (.inr i)).trans m4) (hn1.mono m4)
                refine hq.mono ?_
                rw [mul_div_assoc', div_le_iff₀ hM1]
                nlinarith
              · exact hn2.imp fun _ _ hab => hab.mono m1

end Pydsge
