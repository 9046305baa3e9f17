import Mathlib.Algebra.Order.Field.Basic
import Mathlib.Order.Interval.Finset.Nat
import Mathlib.Data.Finset.Max
import Mathlib.Tactic.Linarith
import Mathlib.Tactic.FieldSimp
import Mathlib.Tactic.Positivity

/-!
# Functions that are Lipschitz on each of finitely many intervals that cover a segment
-/

set_option autoImplicit false
set_option linter.unusedSectionVars false
set_option linter.unusedSimpArgs false

namespace Pydsge
section
variable {K : Type} [Field K] [LinearOrder K] [IsStrictOrderedRing K]

/-- On the segment the predicate holds exactly between two numbers. -/
def IsSpan (P : K → Prop) : Prop := ∃ a b, ∀ t, 0 ≤ t → t ≤ 1 → (P t ↔ a ≤ t ∧ t ≤ b)

theorem isSpan_false {P : K → Prop} (h : ∀ t, ¬ P t) : IsSpan P :=
  ⟨1, 0, fun t h0 h1 => ⟨fun hp => absurd hp (h t), fun ⟨h2, h3⟩ => absurd (h2.trans h3) (by norm_num)⟩⟩

theorem isSpan_true {P : K → Prop} (h : ∀ t, P t) : IsSpan P := ⟨0, 1, fun t h0 h1 => ⟨fun _ => ⟨h0, h1⟩, fun _ => h t⟩⟩

theorem isSpan_const (c : Prop) : IsSpan (fun _ : K => c) := by
  by_cases h : c
  · exact isSpan_true fun _ => h
  · exact isSpan_false fun _ => h

theorem IsSpan.and {P Q : K → Prop} (hP : IsSpan P) (hQ : IsSpan Q) : IsSpan fun t => P t ∧ Q t := by
  obtain ⟨a, b, h⟩ := hP
  obtain ⟨a', b', h'⟩ := hQ
  refine ⟨max a a', min b b', fun t h0 h1 => ?_⟩
  show P t ∧ Q t ↔ _
  rw [h t h0 h1, h' t h0 h1, max_le_iff, le_min_iff]
  tauto

theorem IsSpan.imp {P : K → Prop} (c : Prop) (hP : IsSpan P) : IsSpan fun t => c → P t := by
  by_cases h : c
  · simpa [h] using hP
  · exact isSpan_true fun _ h' => absurd h' h

theorem isSpan_forall {P : Nat → K → Prop} (hP : ∀ n, IsSpan (P n)) (N : Nat) : IsSpan fun t => ∀ n < N, P n t := by
  induction N with
  | zero => exact isSpan_true fun _ n hn => absurd hn (Nat.not_lt_zero n)
  | succ N ih =>
    have : (fun t => ∀ n < N + 1, P n t) = fun t => (∀ n < N, P n t) ∧ P N t := by
      funext t
      refine propext ⟨fun h => ⟨fun n hn => h n (by omega), h N (by omega)⟩, fun h n hn => ?_⟩
      rcases Nat.lt_succ_iff_lt_or_eq.1 hn with h' | rfl
      · exact h.1 n h'
      · exact h.2
    rw [this]
    exact ih.and (hP N)

theorem isSpan_le (x u w : K) : IsSpan fun t => x ≤ u + t * w := by
  rcases lt_trichotomy w 0 with hw | rfl | hw
  · refine ⟨0, (x - u) / w, fun t h0 _ => ?_⟩
    rw [le_div_iff_of_neg hw]
    exact ⟨fun h => ⟨h0, by linarith⟩, fun h => by linarith [h.2]⟩
  · simp only [mul_zero, add_zero]
    exact isSpan_const _
  · refine ⟨(x - u) / w, 1, fun t _ h1 => ?_⟩
    rw [div_le_iff₀ hw]
    exact ⟨fun h => ⟨by linarith, h1⟩, fun h => by linarith [h.1]⟩

theorem isSpan_ge (x u w : K) : IsSpan fun t => u + t * w ≤ x := by
  have := isSpan_le (-x) (-u) (-w)
  obtain ⟨a, b, h⟩ := this
  refine ⟨a, b, fun t h0 h1 => ?_⟩
  rw [← h t h0 h1]
  constructor <;> intro h' <;> nlinarith

/-- If finitely many spans cover the segment and `g` grows by at most `L` per unit on each of them, the same holds on the segment. -/
theorem chain_spans {ι : Type} (P : ι → K → Prop) (S : Finset ι) (hP : ∀ i ∈ S, IsSpan (P i))
    (hcov : ∀ t, 0 ≤ t → t ≤ 1 → ∃ i ∈ S, P i t) (g : K → K) {L : K}
    (hg : ∀ i ∈ S, ∀ s t, 0 ≤ s → s ≤ t → t ≤ 1 → P i s → P i t → |g t - g s| ≤ L * (t - s)) : |g 1 - g 0| ≤ L := by
  classical
  choose! a b hab using hP
  have hiff : ∀ i ∈ S, ∀ t, 0 ≤ t → t ≤ 1 → (P i t ↔ a i ≤ t ∧ t ≤ b i) := hab
  -- go on to the right as long as there are spans that end further to the right
  have key : ∀ (n : Nat) (t : K), 0 ≤ t → t ≤ 1 → (S.filter fun i => t < b i).card ≤ n → |g t - g 0| ≤ L * t → |g 1 - g 0| ≤ L := by
    intro n
    induction n with
    | zero =>
      intro t h0 h1 hc hb
      have he : S.filter (fun i => t < b i) = ∅ := Finset.card_eq_zero.1 (Nat.le_zero.1 hc)
      obtain ⟨i, hi, hp⟩ := hcov 1 zero_le_one le_rfl
      have h1b := ((hiff i hi 1 zero_le_one le_rfl).1 hp).2
      rcases h1.lt_or_eq with hlt | rfl
      · have : i ∈ S.filter (fun i => t < b i) := Finset.mem_filter.2 ⟨hi, hlt.trans_le h1b⟩
        rw [he] at this
        exact absurd this (Finset.notMem_empty _)
      · simpa using hb
    | succ n ih =>
      intro t h0 h1 hc hb
      rcases h1.lt_or_eq with hlt | rfl
      swap
      · simpa using hb
      -- a span that contains `t` and ends further to the right
      have hex : ∃ i ∈ S, a i ≤ t ∧ t < b i := by
        obtain ⟨u, hu1, hu2, hu⟩ : ∃ u, t < u ∧ u ≤ 1 ∧ ∀ i ∈ S, t < a i → u < a i := by
          by_cases hne : (S.filter fun i => t < a i).Nonempty
          · obtain ⟨i, hi, hmin⟩ := Finset.exists_min_image _ a hne
            have hti := (Finset.mem_filter.1 hi).2
            refine ⟨min ((t + a i) / 2) 1, lt_min (by linarith) hlt, min_le_right _ _, fun j hj hj' => ?_⟩
            have := hmin j (Finset.mem_filter.2 ⟨hj, hj'⟩)
            exact (min_le_left _ _).trans_lt (by linarith)
          · refine ⟨1, hlt, le_rfl, fun i hi hi' => absurd ⟨i, Finset.mem_filter.2 ⟨hi, hi'⟩⟩ hne⟩
        obtain ⟨i, hi, hp⟩ := hcov u (h0.trans hu1.le) hu2
        obtain ⟨h2, h3⟩ := (hiff i hi u (h0.trans hu1.le) hu2).1 hp
        refine ⟨i, hi, ?_, hu1.trans_le h3⟩
        by_contra hn
        exact absurd (hu i hi (not_le.1 hn)) (not_lt.2 h2)
      obtain ⟨i, hi, hai, hbi⟩ := hex
      have h2 : t < min (b i) 1 := lt_min hbi hlt
      have hp1 := (hiff i hi t h0 h1).2 ⟨hai, hbi.le⟩
      have hp2 := (hiff i hi (min (b i) 1) (h0.trans h2.le) (min_le_right _ _)).2 ⟨hai.trans h2.le, min_le_left _ _⟩
      have hst := hg i hi t _ h0 h2.le (min_le_right _ _) hp1 hp2
      have hb' : |g (min (b i) 1) - g 0| ≤ L * min (b i) 1 := by
        have := abs_add_le (g (min (b i) 1) - g t) (g t - g 0)
        rw [sub_add_sub_cancel] at this
        linarith
      rcases le_or_gt 1 (b i) with h3 | h3
      · rw [min_eq_right h3] at hb'
        simpa using hb'
      · rw [min_eq_left h3.le] at hb' h2
        refine ih (b i) (h0.trans h2.le) h3.le ?_ hb'
        have hss : (S.filter fun j => b i < b j) ⊂ S.filter fun j => t < b j := by
          refine Finset.ssubset_iff_subset_ne.2 ⟨fun j hj => ?_, fun he => ?_⟩
          · have := Finset.mem_filter.1 hj
            exact Finset.mem_filter.2 ⟨this.1, h2.trans this.2⟩
          · have : i ∈ S.filter fun j => b i < b j := he ▸ Finset.mem_filter.2 ⟨hi, h2⟩
            exact lt_irrefl _ (Finset.mem_filter.1 this).2
        have := Finset.card_lt_card hss
        omega
  exact key _ 0 le_rfl zero_le_one le_rfl (by simp)

end
end Pydsge
