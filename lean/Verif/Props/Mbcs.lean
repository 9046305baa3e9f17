import Mathlib.Algebra.Order.Field.Basic
import Mathlib.Algebra.Order.BigOperators.Group.Finset
import Mathlib.Data.Rat.Cast.Order
import Mathlib.Tactic.Linarith
import Mathlib.Tactic.Ring
import Mathlib.Tactic.Positivity
import Mathlib.Tactic.FieldSimp
import Verif.Model.Mbcs

/-!
# C137: the measure of one main shock
-/

set_option autoImplicit false
set_option linter.unusedSectionVars false
set_option linter.unusedSimpArgs false

namespace Pydsge

open Mbcs

variable {K : Type} [Field K] [LinearOrder K] [IsStrictOrderedRing K]

namespace Mbcs

/-- Shares: nothing negative, and every row adds up to one. -/
structure Shares {r c : Nat} (v : Fin r → Fin c → K) : Prop where
  nonneg : ∀ i j, 0 ≤ v i j
  total : ∀ i, ∑ j, v i j = 1

theorem foldl_max {α : Type} (f : α → K) (l : List α) (b : α) :
    f b ≤ f (l.foldl (fun b y => if f b < f y then y else b) b) ∧
      ∀ x ∈ l, f x ≤ f (l.foldl (fun b y => if f b < f y then y else b) b) := by
  induction l generalizing b with
  | nil => simp
  | cons y l ih =>
    simp only [List.foldl_cons]
    obtain ⟨h1, h2⟩ := ih (if f b < f y then y else b)
    have hb : f b ≤ f (if f b < f y then y else b) ∧ f y ≤ f (if f b < f y then y else b) := by
      split_ifs with h
      · exact ⟨h.le, le_rfl⟩
      · exact ⟨le_rfl, not_lt.1 h⟩
    refine ⟨hb.1.trans h1, fun x hx => ?_⟩
    rcases List.mem_cons.1 hx with rfl | hx
    · exact hb.2.trans h1
    · exact h2 x hx

theorem mem_cells (r c : Nat) (i : Fin r) (j : Fin c) : (i, j) ∈ cells r c := by
  simp [cells]

theorem pick_max {r c : Nat} (v : Fin (r + 1) → Fin (c + 1) → K) (i : Fin (r + 1)) (j : Fin (c + 1)) :
    v i j ≤ v (pick v).1 (pick v).2 :=
  (foldl_max (fun x : Fin (r + 1) × Fin (c + 1) => v x.1 x.2) (cells (r + 1) (c + 1)) (0, 0)).2 (i, j) (mem_cells _ _ i j)

theorem drop_minusOne {r c : Nat} (v : Fin (r + 1) → Fin (c + 1) → K) (ind : Fin (r + 1) × Fin (c + 1)) :
    drop (minusOne v ind) ind = drop v ind := by
  funext i j
  simp [drop, minusOne, Fin.succAbove_ne]

theorem added_eq {r c : Nat} (v : Fin (r + 1) → Fin (c + 1) → K) (ind : Fin (r + 1) × Fin (c + 1)) :
    added (minusOne v ind) ind =
      (v ind.1 ind.2 - 1) ^ 2 + (∑ j, v ind.1 (ind.2.succAbove j) ^ 2) + (∑ i, v (ind.1.succAbove i) ind.2 ^ 2) := by
  unfold added
  rw [Fin.sum_univ_succAbove _ ind.2, Fin.sum_univ_succAbove (fun i => minusOne v ind i ind.2 ^ 2) ind.1]
  simp [minusOne, Fin.succAbove_ne]
  ring

/-- The sum of the values that the loop picks. -/
def picked : (r c : Nat) → (Fin r → Fin c → K) → K
  | 0, _, _ => 0
  | _ + 1, 0, _ => 0
  | r + 1, c + 1, v => v (pick v).1 (pick v).2 + picked r c (drop v (pick v))

/-- What the loop adds. -/
def sumAdded : (r c : Nat) → (Fin r → Fin c → K) → K
  | 0, _, _ => 0
  | _ + 1, 0, _ => 0
  | r + 1, c + 1, v => added (minusOne v (pick v)) (pick v) + sumAdded r c (drop v (pick v))

theorem loop_eq (r c : Nat) (h : r ≤ c) (v : Fin r → Fin c → K) (x : K) : loop r c v x = .ok (x + sumAdded r c v) := by
  induction r generalizing c x with
  | zero => simp [loop, sumAdded]
  | succ r ih =>
    cases c with
    | zero => omega
    | succ c =>
      simp only [loop, sumAdded]
      rw [drop_minusOne, ih c (by omega)]
      simp [add_assoc]

theorem loop_fails (r c : Nat) (h : c < r) (v : Fin r → Fin c → K) (x : K) : loop r c v x = .error .valueError := by
  induction c generalizing r x with
  | zero =>
    cases r with
    | zero => omega
    | succ r => rfl
  | succ c ih =>
    cases r with
    | zero => omega
    | succ r => simp only [loop]; exact ih r (by omega) _ _

theorem sumAdded_nonneg (r c : Nat) (v : Fin r → Fin c → K) : 0 ≤ sumAdded r c v := by
  induction r generalizing c with
  | zero => simp [sumAdded]
  | succ r ih =>
    cases c with
    | zero => simp [sumAdded]
    | succ c =>
      simp only [sumAdded]
      rw [added_eq]
      have := ih c (drop v (pick v))
      positivity

/-- The whole of an array. -/
def mass {r c : Nat} (v : Fin r → Fin c → K) : K := ∑ i, ∑ j, v i j

theorem mass_split {r c : Nat} (v : Fin (r + 1) → Fin (c + 1) → K) (ind : Fin (r + 1) × Fin (c + 1)) :
    mass v = v ind.1 ind.2 + (∑ j, v ind.1 (ind.2.succAbove j)) + (∑ i, v (ind.1.succAbove i) ind.2) + mass (drop v ind) := by
  unfold mass drop
  rw [Fin.sum_univ_succAbove _ ind.1, Fin.sum_univ_succAbove _ ind.2]
  have : ∀ i, ∑ j, v (ind.1.succAbove i) j =
      v (ind.1.succAbove i) ind.2 + ∑ j, v (ind.1.succAbove i) (ind.2.succAbove j) :=
    fun i => Fin.sum_univ_succAbove _ ind.2
  simp only [this, Finset.sum_add_distrib]
  ring

theorem sum_sq_le {ι : Type} [Fintype ι] (f : ι → K) (m : K) (h0 : ∀ i, 0 ≤ f i) (hm : ∀ i, f i ≤ m) :
    ∑ i, f i ^ 2 ≤ m * ∑ i, f i := by
  rw [Finset.mul_sum]
  refine Finset.sum_le_sum fun i _ => ?_
  rw [pow_two]
  exact mul_le_mul_of_nonneg_right (hm i) (h0 i)

/-- Nothing negative, and no row adds up to more than one. -/
structure Sub {r c : Nat} (v : Fin r → Fin c → K) : Prop where
  nonneg : ∀ i j, 0 ≤ v i j
  total : ∀ i, ∑ j, v i j ≤ 1

theorem Shares.sub {r c : Nat} {v : Fin r → Fin c → K} (h : Shares v) : Sub v := ⟨h.nonneg, fun i => (h.total i).le⟩

theorem Sub.drop {r c : Nat} {v : Fin (r + 1) → Fin (c + 1) → K} (h : Sub v) (ind : Fin (r + 1) × Fin (c + 1)) :
    Sub (Mbcs.drop v ind) := by
  refine ⟨fun i j => h.nonneg _ _, fun i => ?_⟩
  have := h.total (ind.1.succAbove i)
  rw [Fin.sum_univ_succAbove _ ind.2] at this
  have h0 := h.nonneg (ind.1.succAbove i) ind.2
  unfold Mbcs.drop
  linarith

theorem Sub.le_one {r c : Nat} {v : Fin r → Fin c → K} (h : Sub v) (i : Fin r) (j : Fin c) : v i j ≤ 1 :=
  (Finset.single_le_sum (f := fun j => v i j) (fun j _ => h.nonneg i j) (Finset.mem_univ j)).trans (h.total i)

/-- One step: what is added, and the picked row without the picked value. -/
theorem step_bound {r c : Nat} {v : Fin (r + 1) → Fin (c + 1) → K} (h : Sub v) :
    added (minusOne v (pick v)) (pick v) + 2 * v (pick v).1 (pick v).2 + mass (drop v (pick v)) +
      ∑ j, v (pick v).1 ((pick v).2.succAbove j) ≤ 1 + mass v := by
  rw [added_eq, mass_split v (pick v)]
  set m := v (pick v).1 (pick v).2 with hm
  have hrow := h.total (pick v).1
  rw [Fin.sum_univ_succAbove _ (pick v).2, ← hm] at hrow
  have h1 := sum_sq_le (fun j => v (pick v).1 ((pick v).2.succAbove j)) m (fun j => h.nonneg _ _) (fun j => pick_max v _ _)
  have h2 := sum_sq_le (fun i => v ((pick v).1.succAbove i) (pick v).2) 1 (fun j => h.nonneg _ _) (fun j => h.le_one _ _)
  have hm0 : 0 ≤ m := h.nonneg _ _
  have hm1 : m ≤ 1 := h.le_one _ _
  set R := ∑ j, v (pick v).1 ((pick v).2.succAbove j) with hR
  set C := ∑ i, v ((pick v).1.succAbove i) (pick v).2 with hC
  have h3 : m * R ≤ m * (1 - m) := mul_le_mul_of_nonneg_left (by linarith) hm0
  nlinarith

theorem sumAdded_bound (r c : Nat) (hrc : r ≤ c) (v : Fin r → Fin c → K) (h : Sub v) :
    sumAdded r c v + 2 * picked r c v ≤ r + mass v := by
  induction r generalizing c with
  | zero => simp [sumAdded, picked, mass]
  | succ r ih =>
    cases c with
    | zero => omega
    | succ c =>
      simp only [sumAdded, picked]
      have h1 := ih c (by omega) (drop v (pick v)) (h.drop _)
      have h2 := step_bound h
      have h3 : 0 ≤ ∑ j, v (pick v).1 ((pick v).2.succAbove j) := Finset.sum_nonneg fun j _ => h.nonneg _ _
      push_cast
      linarith

theorem picked_nonneg (r c : Nat) (v : Fin r → Fin c → K) (h : Sub v) : 0 ≤ picked r c v := by
  induction r generalizing c with
  | zero => simp [picked]
  | succ r ih =>
    cases c with
    | zero => simp [picked]
    | succ c =>
      simp only [picked]
      exact add_nonneg (h.nonneg _ _) (ih c _ (h.drop _))

/-- In a square array the picked values are at least as large as the smallest row. -/
theorem picked_ge (n : Nat) (s : K) (v : Fin (n + 1) → Fin (n + 1) → K) (h : ∀ i, s ≤ ∑ j, v i j) : s ≤ picked (n + 1) (n + 1) v := by
  induction n generalizing s with
  | zero =>
    have := h (pick v).1
    rw [Fin.sum_univ_succAbove _ (pick v).2] at this
    simpa [picked] using this
  | succ n ih =>
    have h1 := ih (s - v (pick v).1 (pick v).2) (drop v (pick v)) (fun i => by
      have := h ((pick v).1.succAbove i)
      rw [Fin.sum_univ_succAbove _ (pick v).2] at this
      have h2 := pick_max v ((pick v).1.succAbove i) (pick v).2
      unfold drop
      linarith)
    rw [picked]
    linarith

theorem mass_shares {r c : Nat} {v : Fin r → Fin c → K} (h : Shares v) : mass v = r := by
  unfold mass
  simp [h.total]

theorem sumAdded_le {r c : Nat} (hrc : r ≤ c) (hc : 0 < c) {v : Fin r → Fin c → K} (h : Shares v) :
    sumAdded r c v ≤ 2 * ((c : K) - 1) := by
  have h1 := sumAdded_bound r c hrc v h.sub
  rw [mass_shares h] at h1
  rcases Nat.lt_or_ge r c with hlt | hge
  · have h2 := picked_nonneg r c v h.sub
    have h3 : (r : K) + 1 ≤ c := by exact_mod_cast hlt
    linarith
  · obtain rfl : r = c := le_antisymm hrc hge
    obtain ⟨n, rfl⟩ : ∃ n, r = n + 1 := ⟨r - 1, by omega⟩
    have h2 := picked_ge n 1 v (fun i => (h.total i).ge)
    linarith

theorem two_mul_pos {c : Nat} (hc : 2 ≤ c) : (0 : K) < 2 * ((c : K) - 1) := by
  have : (2 : K) ≤ c := by exact_mod_cast hc
  linarith

theorem index_eq {r c : Nat} (hrc : r ≤ c) (hc : 2 ≤ c) (v : Fin r → Fin c → K) :
    index c v = .ok (some (sumAdded r c v / (2 * ((c : K) - 1)))) := by
  unfold index
  rw [loop_eq r c hrc]
  simp only [zero_add]
  rw [if_neg (two_mul_pos hc).ne']

end Mbcs

/-- **C137.** As documented, the measure lies between zero and one, for every array of shares with at least two shocks and at most as many
rows as shocks. -/
theorem C137_range {r c : Nat} (hrc : r ≤ c) (hc : 2 ≤ c) (v : Fin r → Fin c → K) (h : Shares v) :
    ∃ x, index c v = .ok (some x) ∧ 0 ≤ x ∧ x ≤ 1 := by
  have hp := two_mul_pos (K := K) hc
  refine ⟨_, index_eq hrc hc v, div_nonneg (sumAdded_nonneg r c v) hp.le, ?_⟩
  rw [div_le_one hp]
  exact sumAdded_le hrc (by omega) h

/-- **C137.** With more rows than shocks it fails. -/
theorem C137_more_rows_fail {r c : Nat} (hrc : c < r) (v : Fin r → Fin c → K) (n : Nat) : index n v = .error .valueError := by
  unfold index
  rw [loop_fails r c hrc]

namespace Mbcs

/-- Every row is explained by one shock, and no two by the same one. -/
def OneEach {r c : Nat} (v : Fin r → Fin c → K) : Prop :=
  ∃ σ : Fin r → Fin c, Function.Injective σ ∧ ∀ i j, v i j = if j = σ i then 1 else 0

theorem sumAdded_zero_of (r c : Nat) (hrc : r ≤ c) (v : Fin r → Fin c → K) (h : OneEach v) : sumAdded r c v = 0 := by
  induction r generalizing c with
  | zero => simp [sumAdded]
  | succ r ih =>
    cases c with
    | zero => omega
    | succ c =>
      obtain ⟨σ, hσ, hv⟩ := h
      have hmax := pick_max v 0 (σ 0)
      have hp : (pick v).2 = σ (pick v).1 := by
        by_contra hne
        rw [hv, hv, if_pos rfl, if_neg hne] at hmax
        exact absurd hmax (not_le.2 zero_lt_one)
      simp only [sumAdded]
      rw [added_eq]
      have e1 : v (pick v).1 (pick v).2 = 1 := by rw [hv, if_pos hp]
      have e2 : ∀ j, v (pick v).1 ((pick v).2.succAbove j) = 0 := fun j => by
        rw [hv, if_neg]
        rw [← hp]
        exact Fin.succAbove_ne _ _
      have e3 : ∀ i, v ((pick v).1.succAbove i) (pick v).2 = 0 := fun i => by
        rw [hv, if_neg]
        rw [hp]
        exact fun he => Fin.succAbove_ne _ _ (hσ he).symm
      rw [ih c (by omega)]
      · simp [e1, e2, e3]
      · have hne : ∀ i, σ ((pick v).1.succAbove i) ≠ (pick v).2 := fun i he => by
          rw [hp] at he
          exact Fin.succAbove_ne _ _ (hσ he)
        have hex : ∀ i, ∃ j, (pick v).2.succAbove j = σ ((pick v).1.succAbove i) := fun i => Fin.exists_succAbove_eq (hne i)
        choose τ hτ using hex
        refine ⟨τ, fun a b hab => ?_, fun i j => ?_⟩
        · have : σ ((pick v).1.succAbove a) = σ ((pick v).1.succAbove b) := by rw [← hτ, ← hτ, hab]
          exact Fin.succAbove_right_injective (hσ this)
        · unfold drop
          rw [hv, ← hτ i]
          simp [Fin.succAbove_right_inj]

theorem oneEach_of_zero (r c : Nat) (hrc : r ≤ c) (v : Fin r → Fin c → K) (h : sumAdded r c v = 0) : OneEach v := by
  induction r generalizing c with
  | zero => exact ⟨fun i => i.elim0, fun i => i.elim0, fun i => i.elim0⟩
  | succ r ih =>
    cases c with
    | zero => omega
    | succ c =>
      simp only [sumAdded] at h
      rw [added_eq] at h
      have hrest := sumAdded_nonneg r c (drop v (pick v))
      have hR : 0 ≤ ∑ j, v (pick v).1 ((pick v).2.succAbove j) ^ 2 := Finset.sum_nonneg fun j _ => sq_nonneg _
      have hC : 0 ≤ ∑ i, v ((pick v).1.succAbove i) (pick v).2 ^ 2 := Finset.sum_nonneg fun j _ => sq_nonneg _
      have hm : 0 ≤ (v (pick v).1 (pick v).2 - 1) ^ 2 := sq_nonneg _
      have e0 : sumAdded r c (drop v (pick v)) = 0 := by linarith
      have e1 : (v (pick v).1 (pick v).2 - 1) ^ 2 = 0 := by linarith
      have e2 : ∑ j, v (pick v).1 ((pick v).2.succAbove j) ^ 2 = 0 := by linarith
      have e3 : ∑ i, v ((pick v).1.succAbove i) (pick v).2 ^ 2 = 0 := by linarith
      have e1' : v (pick v).1 (pick v).2 = 1 := by
        have := pow_eq_zero_iff (two_ne_zero) |>.1 e1
        linarith
      have e2' : ∀ j, v (pick v).1 ((pick v).2.succAbove j) = 0 := fun j => by
        have := (Finset.sum_eq_zero_iff_of_nonneg (fun j _ => sq_nonneg _)).1 e2 j (Finset.mem_univ j)
        exact pow_eq_zero_iff (two_ne_zero) |>.1 this
      have e3' : ∀ i, v ((pick v).1.succAbove i) (pick v).2 = 0 := fun j => by
        have := (Finset.sum_eq_zero_iff_of_nonneg (fun j _ => sq_nonneg _)).1 e3 j (Finset.mem_univ j)
        exact pow_eq_zero_iff (two_ne_zero) |>.1 this
      obtain ⟨τ, hτ, hv⟩ := ih c (by omega) _ e0
      refine ⟨(pick v).1.insertNth (α := fun _ => Fin (c + 1)) (pick v).2 (fun i => (pick v).2.succAbove (τ i)), ?_, ?_⟩
      · intro a b hab
        rcases Fin.eq_self_or_eq_succAbove (pick v).1 a with ha | ⟨a', ha⟩ <;>
          rcases Fin.eq_self_or_eq_succAbove (pick v).1 b with hb | ⟨b', hb⟩
        · rw [ha, hb]
        · rw [ha, hb] at hab
          simp only [Fin.insertNth_apply_same, Fin.insertNth_apply_succAbove] at hab
          exact absurd hab.symm (Fin.succAbove_ne _ _)
        · rw [ha, hb] at hab
          simp only [Fin.insertNth_apply_same, Fin.insertNth_apply_succAbove] at hab
          exact absurd hab (Fin.succAbove_ne _ _)
        · rw [ha, hb] at hab
          simp only [Fin.insertNth_apply_succAbove] at hab
          rw [ha, hb, hτ (Fin.succAbove_right_injective hab)]
      · intro i j
        rcases Fin.eq_self_or_eq_succAbove (pick v).1 i with hi | ⟨i', hi⟩ <;>
          rcases Fin.eq_self_or_eq_succAbove (pick v).2 j with hj | ⟨j', hj⟩
        · rw [hi, hj]
          simp only [Fin.insertNth_apply_same]
          simpa using e1'
        · rw [hi, hj]
          simp only [Fin.insertNth_apply_same]
          rw [e2', if_neg (Fin.succAbove_ne _ _)]
        · rw [hi, hj]
          simp only [Fin.insertNth_apply_succAbove]
          rw [e3', if_neg (Fin.succAbove_ne _ _).symm]
        · rw [hi, hj]
          simp only [Fin.insertNth_apply_succAbove]
          have := hv i' j'
          unfold drop at this
          rw [this]
          simp [Fin.succAbove_right_inj]

/-- All rows are explained by the same shock. -/
def OneForAll {r c : Nat} (v : Fin r → Fin c → K) : Prop := ∃ j₀, ∀ i j, v i j = if j = j₀ then 1 else 0

end Mbcs

/-- **C137.** It is zero exactly if every row is explained by one shock of its own. -/
theorem C137_zero_iff {r c : Nat} (hrc : r ≤ c) (hc : 2 ≤ c) (v : Fin r → Fin c → K) :
    index c v = .ok (some 0) ↔ OneEach v := by
  rw [index_eq hrc hc]
  have hp := two_mul_pos (K := K) hc
  constructor
  · intro h
    refine oneEach_of_zero r c hrc v ?_
    simp only [Except.ok.injEq, Option.some.injEq] at h
    rcases div_eq_zero_iff.1 h with h | h
    · exact h
    · exact absurd h hp.ne'
  · intro h
    rw [sumAdded_zero_of r c hrc v h, zero_div]

namespace Mbcs

theorem sumAdded_null (r c : Nat) (hrc : r ≤ c) (v : Fin r → Fin c → K) (h : ∀ i j, v i j = 0) : sumAdded r c v = r := by
  induction r generalizing c with
  | zero => simp [sumAdded]
  | succ r ih =>
    cases c with
    | zero => omega
    | succ c =>
      simp only [sumAdded]
      rw [added_eq, ih c (by omega) (drop v (pick v)) (fun i j => h _ _)]
      simp [h]
      ring

theorem null_of_picked {r c : Nat} {v : Fin (r + 1) → Fin (c + 1) → K} (h : Sub v) (h0 : picked (r + 1) (c + 1) v ≤ 0) (i j) : v i j = 0 := by
  simp only [picked] at h0
  have h1 := picked_nonneg r c _ (h.drop (pick v))
  have h2 := pick_max v i j
  exact le_antisymm (by linarith) (h.nonneg i j)

theorem sumAdded_oneForAll {n : Nat} {v : Fin (n + 1) → Fin (n + 1) → K} (h : OneForAll v) : sumAdded (n + 1) (n + 1) v = 2 * n := by
  obtain ⟨j₀, hv⟩ := h
  have hp : (pick v).2 = j₀ := by
    by_contra hne
    have hmax := pick_max v 0 j₀
    rw [hv, hv, if_pos rfl, if_neg hne] at hmax
    exact absurd hmax (not_le.2 zero_lt_one)
  simp only [sumAdded]
  rw [added_eq, sumAdded_null n n le_rfl]
  · simp only [hv, hp, Fin.succAbove_ne, if_true, if_false]
    simp
    ring
  · intro i j
    unfold drop
    rw [hv, hp, if_neg (Fin.succAbove_ne _ _)]

theorem oneForAll_of {r c : Nat} (hrc : r ≤ c) (hc : 2 ≤ c) {v : Fin r → Fin c → K} (h : Shares v)
    (he : sumAdded r c v = 2 * ((c : K) - 1)) : r = c ∧ OneForAll v := by
  have hb := sumAdded_bound r c hrc v h.sub
  rw [mass_shares h, he] at hb
  rcases Nat.lt_or_ge r c with hlt | hge
  · exfalso
    have h3 : (r : K) + 1 ≤ c := by exact_mod_cast hlt
    cases r with
    | zero =>
      simp only [sumAdded] at he
      exact absurd he.symm (two_mul_pos (K := K) hc).ne'
    | succ r =>
      obtain ⟨c, rfl⟩ : ∃ d, c = d + 1 := ⟨c - 1, by omega⟩
      have h4 : picked (r + 1) (c + 1) v ≤ 0 := by linarith
      have h5 := h.total 0
      simp [null_of_picked h.sub h4] at h5
  · obtain rfl : r = c := le_antisymm hrc hge
    refine ⟨rfl, ?_⟩
    obtain ⟨n, rfl⟩ : ∃ n, r = n + 2 := ⟨r - 2, by omega⟩
    have h2 := picked_ge (n + 1) 1 v (fun i => (h.total i).ge)
    have hs := step_bound h.sub
    have hd := sumAdded_bound (n + 1) (n + 1) le_rfl _ (h.sub.drop (pick v))
    have hrow := h.total (pick v).1
    rw [Fin.sum_univ_succAbove _ (pick v).2] at hrow
    have hR : 0 ≤ ∑ j, v (pick v).1 ((pick v).2.succAbove j) := Finset.sum_nonneg fun j _ => h.nonneg _ _
    have hpk : picked (n + 2) (n + 2) v = v (pick v).1 (pick v).2 + picked (n + 1) (n + 1) (drop v (pick v)) := rfl
    have hsa : sumAdded (n + 2) (n + 2) v = added (minusOne v (pick v)) (pick v) + sumAdded (n + 1) (n + 1) (drop v (pick v)) := rfl
    rw [hsa] at he
    rw [hpk] at h2
    rw [mass_shares h] at hs
    have hpn := picked_nonneg _ _ _ (h.sub.drop (pick v))
    push_cast at he hs hd
    have hz : picked (n + 1) (n + 1) (drop v (pick v)) ≤ 0 := by linarith
    have hnull := null_of_picked (h.sub.drop (pick v)) hz
    have hR0 : ∑ j, v (pick v).1 ((pick v).2.succAbove j) = 0 := by linarith
    have hm : v (pick v).1 (pick v).2 = 1 := by linarith
    refine ⟨(pick v).2, fun i j => ?_⟩
    rcases Fin.eq_self_or_eq_succAbove (pick v).1 i with hi | ⟨i', hi⟩ <;>
      rcases Fin.eq_self_or_eq_succAbove (pick v).2 j with hj | ⟨j', hj⟩
    · rw [hi, hj, if_pos rfl, hm]
    · rw [hi, hj, if_neg (Fin.succAbove_ne _ _)]
      exact (Finset.sum_eq_zero_iff_of_nonneg (fun j _ => h.nonneg _ _)).1 hR0 j' (Finset.mem_univ j')
    · rw [hi, hj, if_pos rfl]
      have := h.total ((pick v).1.succAbove i')
      rw [Fin.sum_univ_succAbove _ (pick v).2] at this
      have hz' : ∀ j', v ((pick v).1.succAbove i') ((pick v).2.succAbove j') = 0 := fun j' => hnull i' j'
      simpa [hz'] using this
    · rw [hi, hj, if_neg (Fin.succAbove_ne _ _)]
      exact hnull i' j'

end Mbcs

/-- **C137.** It is one exactly if there are as many rows as shocks and one shock explains all rows. -/
theorem C137_one_iff {r c : Nat} (hrc : r ≤ c) (hc : 2 ≤ c) (v : Fin r → Fin c → K) (h : Shares v) :
    index c v = .ok (some 1) ↔ r = c ∧ OneForAll v := by
  rw [index_eq hrc hc]
  have hp := two_mul_pos (K := K) hc
  simp only [Except.ok.injEq, Option.some.injEq]
  rw [div_eq_one_iff_eq hp.ne']
  constructor
  · exact oneForAll_of hrc hc h
  · rintro ⟨rfl, ho⟩
    obtain ⟨n, rfl⟩ : ∃ n, r = n + 1 := ⟨r - 1, by omega⟩
    rw [sumAdded_oneForAll ho]
    push_cast
    ring

/-- **C137.** For a single shock there is no value (the code divides by zero). -/
theorem C137_single_shock_refuted {r : Nat} (hr : r ≤ 1) (v : Fin r → Fin 1 → K) : index 1 v = .ok none := by
  unfold index
  rw [loop_eq r 1 hr]
  simp

/-- A concrete case: two observables, two shocks; the first shock explains most of both. -/
def mbcsEx : Fin 2 → Fin 2 → ℚ := fun i j => if i = 0 then (if j = 0 then 3 / 4 else 1 / 4) else (if j = 0 then 1 / 2 else 1 / 2)

theorem mbcsEx_shares : Shares mbcsEx := by
  constructor
  · decide +kernel
  · decide +kernel

theorem mbcsEx_value : index 2 mbcsEx = .ok (some (5 / 16)) := by decide +kernel

namespace Mbcs

/-- Earlier in the memory of the array, or the same. -/
def Before {r c : Nat} (x y : Fin r × Fin c) : Prop := x.1 < y.1 ∨ (x.1 = y.1 ∧ x.2 ≤ y.2)

theorem foldl_first {α : Type} (W : α → α → Prop) (hr : ∀ x, W x x) (ht : ∀ x y w, W x y → W y w → W x w) (f : α → K) (l : List α) (b : α)
    (hp : (b :: l).Pairwise W) : ∀ y ∈ b :: l, f y = f (l.foldl (fun b y => if f b < f y then y else b) b) →
      W (l.foldl (fun b y => if f b < f y then y else b) b) y := by
  induction l generalizing b with
  | nil =>
    intro y hy _
    rw [List.mem_singleton.1 hy]
    exact hr b
  | cons y0 l ih =>
    intro y hy he
    simp only [List.foldl_cons] at he ⊢
    rw [List.pairwise_cons, List.pairwise_cons] at hp
    obtain ⟨hb, hy0, hl⟩ := hp
    by_cases hlt : f b < f y0
    · rw [if_pos hlt] at he ⊢
      have hmax := (foldl_max f l y0).1
      rcases List.mem_cons.1 hy with rfl | hy
      · rw [he] at hlt
        exact absurd hmax (not_le.2 hlt)
      · exact ih y0 (List.pairwise_cons.2 ⟨hy0, hl⟩) y hy he
    · rw [if_neg hlt] at he ⊢
      have hbl : (b :: l).Pairwise W := List.pairwise_cons.2 ⟨fun w hw => hb w (List.mem_cons_of_mem _ hw), hl⟩
      rcases List.mem_cons.1 hy with rfl | hy
      · exact ih y hbl y (List.mem_cons_self ..) he
      rcases List.mem_cons.1 hy with rfl | hy
      · have hmax := (foldl_max f l b).1
        have := ih b hbl b (List.mem_cons_self ..) (le_antisymm hmax (he ▸ not_lt.1 hlt))
        exact ht _ _ _ this (hb y (List.mem_cons_self ..))
      · exact ih b hbl y (List.mem_cons_of_mem _ hy) he

theorem cells_sorted (r c : Nat) : (cells r c).Pairwise Before := by
  unfold cells
  rw [List.pairwise_flatMap]
  refine ⟨fun i _ => ?_, (List.pairwise_lt_finRange r).imp fun {a b} hab x hx y hy => ?_⟩
  · rw [List.pairwise_map]
    exact (List.pairwise_lt_finRange c).imp fun {a b} hab => .inr ⟨rfl, hab.le⟩
  · obtain ⟨_, _, rfl⟩ := List.mem_map.1 hx
    obtain ⟨_, _, rfl⟩ := List.mem_map.1 hy
    exact .inl hab

end Mbcs

/-- **C137**: the value that is picked is the first of the largest ones: no other one is as large in an earlier row, or earlier in the same row. -/
theorem C137_first_largest {r c : Nat} (v : Fin (r + 1) → Fin (c + 1) → K) :
    (∀ i j, v i j ≤ v (pick v).1 (pick v).2) ∧
    ∀ i j, v i j = v (pick v).1 (pick v).2 → (pick v).1 < i ∨ ((pick v).1 = i ∧ (pick v).2 ≤ j) := by
  refine ⟨pick_max v, fun i j he => ?_⟩
  refine foldl_first (Before (r := r + 1) (c := c + 1)) (fun x => .inr ⟨rfl, le_rfl⟩) (fun x y w h1 h2 => ?_) (fun x => v x.1 x.2) _ _ ?_ (i, j)
    (List.mem_cons_of_mem _ (mem_cells _ _ i j)) he
  · rcases h1 with h1 | ⟨h1, h1'⟩ <;> rcases h2 with h2 | ⟨h2, h2'⟩
    · exact .inl (h1.trans h2)
    · exact .inl (h2 ▸ h1)
    · exact .inl (h1 ▸ h2)
    · exact .inr ⟨h1.trans h2, h1'.trans h2'⟩
  · refine List.pairwise_cons.2 ⟨fun x _ => ?_, cells_sorted _ _⟩
    rcases (Fin.zero_le x.1).eq_or_lt with e | e
    · exact .inr ⟨e, Fin.zero_le x.2⟩
    · exact .inl e

namespace Mbcs

/-- No two shares are equal. -/
def NoTies {r c : Nat} (v : Fin r → Fin c → K) : Prop := ∀ i j i' j', v i j = v i' j' → i = i' ∧ j = j'

theorem NoTies.drop {r c : Nat} {v : Fin (r + 1) → Fin (c + 1) → K} (h : NoTies v) (ind : Fin (r + 1) × Fin (c + 1)) : NoTies (Mbcs.drop v ind) :=
  fun i j i' j' he => by
    obtain ⟨h1, h2⟩ := h _ _ _ _ he
    exact ⟨Fin.succAbove_right_injective h1, Fin.succAbove_right_injective h2⟩

/-- Leaving out a position and the one it is sent to. -/
theorem perm_rest {n : Nat} (e : Fin (n + 1) ≃ Fin (n + 1)) (a : Fin (n + 1)) :
    ∃ e' : Fin n ≃ Fin n, ∀ i, e (a.succAbove i) = (e a).succAbove (e' i) := by
  have hex : ∀ i, ∃ k, (e a).succAbove k = e (a.succAbove i) := fun i =>
    Fin.exists_succAbove_eq fun g => Fin.succAbove_ne a i (e.injective g)
  choose f hf using hex
  have hinj : Function.Injective f := fun i j hij => by
    have := (hf i).symm.trans ((congrArg _ hij).trans (hf j))
    exact Fin.succAbove_right_injective (e.injective this)
  exact ⟨Equiv.ofBijective f (Finite.injective_iff_bijective.1 hinj), fun i => (hf i).symm⟩

theorem pick_permuted {r c : Nat} {v w : Fin (r + 1) → Fin (c + 1) → K} (h : NoTies v) (e : Fin (r + 1) ≃ Fin (r + 1)) (e' : Fin (c + 1) ≃ Fin (c + 1))
    (hw : ∀ i j, w i j = v (e i) (e' j)) : e (pick w).1 = (pick v).1 ∧ e' (pick w).2 = (pick v).2 := by
  refine h _ _ _ _ (le_antisymm (pick_max v _ _) ?_)
  have := pick_max w (e.symm (pick v).1) (e'.symm (pick v).2)
  rwa [hw, hw, Equiv.apply_symm_apply, Equiv.apply_symm_apply] at this

theorem sumAdded_permuted (r c : Nat) (v w : Fin r → Fin c → K) (h : NoTies v) (e : Fin r ≃ Fin r) (e' : Fin c ≃ Fin c)
    (hw : ∀ i j, w i j = v (e i) (e' j)) : sumAdded r c w = sumAdded r c v := by
  induction r generalizing c with
  | zero => simp [sumAdded]
  | succ r ih =>
    cases c with
    | zero => simp [sumAdded]
    | succ c =>
      obtain ⟨p1, p2⟩ := pick_permuted h e e' hw
      obtain ⟨f, hf⟩ := perm_rest e (pick w).1
      obtain ⟨f', hf'⟩ := perm_rest e' (pick w).2
      rw [p1] at hf
      rw [p2] at hf'
      simp only [sumAdded]
      rw [ih c (drop v (pick v)) (drop w (pick w)) (h.drop _) f f' (fun i j => by
        simp only [Mbcs.drop]
        rw [hw, hf, hf']), added_eq, added_eq, hw, p1, p2]
      congr 2
      · congr 1
        rw [← f'.sum_comp (fun j => v (pick v).1 ((pick v).2.succAbove j) ^ 2)]
        exact Finset.sum_congr rfl fun j _ => by rw [hw, hf', p1]
      · rw [← f.sum_comp (fun i => v ((pick v).1.succAbove i) (pick v).2 ^ 2)]
        exact Finset.sum_congr rfl fun i _ => by rw [hw, hf, p2]

end Mbcs

/-- **C194 (partial).** The measure does not depend on the order of the observables and of the shocks, nor does its failure, if no two shares are equal.  Missing: equal shares, where the first
one is taken (`C194_order_refuted`). -/
theorem C194_order_partial (n : Nat) {r c : Nat} (v w : Fin r → Fin c → K) (h : NoTies v) (e : Fin r ≃ Fin r) (e' : Fin c ≃ Fin c)
    (hw : ∀ i j, w i j = v (e i) (e' j)) : index n w = index n v := by
  unfold index
  rcases Nat.lt_or_ge c r with hlt | hge
  · rw [loop_fails r c hlt, loop_fails r c hlt]
  · rw [loop_eq r c hge, loop_eq r c hge, sumAdded_permuted r c v w h e e' hw]

/-- Two observables, three shocks; the largest share occurs three times. -/
def mbcsTie : Fin 2 → Fin 3 → ℚ := fun i j => if i = 0 then (if j = 2 then 0 else 1 / 2) else (if j = 0 then 1 / 2 else if j = 1 then 3 / 10 else 1 / 5)

/-- **C194** (fails in general): the measure depends on the order in which the observables are listed, if the largest share is not unique: 8/25 in one order, 11/50 in the other. -/
theorem C194_order_refuted : Shares mbcsTie ∧ index 3 mbcsTie = .ok (some (8 / 25)) ∧ index 3 (fun i => mbcsTie (1 - i)) = .ok (some (11 / 50)) := by
  refine ⟨⟨by decide +kernel, by decide +kernel⟩, by decide +kernel, by decide +kernel⟩

/-- The hypothesis of `C194_order_partial` is met by shares of two observables. -/
def mbcsDistinct : Fin 2 → Fin 3 → ℚ := fun i j => if i = 0 then (if j = 0 then 1 / 2 else if j = 1 then 3 / 8 else 1 / 8) else
  (if j = 0 then 2 / 3 else if j = 1 then 1 / 4 else 1 / 12)

theorem C194_hypotheses_met : Shares mbcsDistinct ∧ NoTies mbcsDistinct ∧ index 3 mbcsDistinct ≠ .ok (some 0) := by
  refine ⟨⟨by decide +kernel, by decide +kernel⟩, ?_, by decide +kernel⟩
  unfold NoTies
  decide +kernel

end Pydsge
