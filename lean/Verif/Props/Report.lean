import Verif.Model.Report
import Mathlib.Tactic.Linarith
import Mathlib.Tactic.Ring
import Mathlib.Algebra.Order.Group.Nat
import Mathlib.Data.List.Flatten
import Mathlib.Algebra.Order.Ring.Int

/-!
# C162: the report of the current best guess
-/

set_option autoImplicit false
set_option linter.unusedSimpArgs false
set_option linter.unusedVariables false

namespace Pydsge

open Report

/-! ## Specification -/

/-- A table in sections: in each section a row of names and, below, a row with as many values; both rows start with an empty field, and fields are
eight characters wide (wider if the text is longer). -/
def Spec.Sections (secs : List (List Txt × List Txt)) : List Line :=
  .header :: (secs.flatMap fun s => [.row (cell [] ++ s.1.flatMap cell), .row (cell [] ++ s.2.flatMap cell), .blank]) ++ [.blank]

/-! ## Proofs -/

theorem sum_sizes (n k : Nat) (hk : 0 < k) : (sizes n k).sum = n := by
  have h1 := Nat.mod_lt n hk
  have h2 := Nat.div_add_mod n k
  unfold sizes
  rw [List.sum_append, List.sum_replicate_nat, List.sum_replicate_nat]
  obtain ⟨d, hd⟩ := Nat.exists_eq_add_of_lt h1
  rw [show k - n % k = d + 1 by omega]
  generalize n / k = q at *
  generalize n % k = m at *
  subst hd
  nlinarith

theorem pieces_flatten {α : Type} (ns : List Nat) (xs : List α) (h : xs.length ≤ ns.sum) : (pieces ns xs).flatten = xs := by
  induction ns generalizing xs with
  | nil =>
    cases xs with
    | nil => rfl
    | cons a xs => simp at h
  | cons n ns ih =>
    simp only [pieces, List.flatten_cons]
    rw [ih, List.take_append_drop]
    rw [List.length_drop]
    rw [List.sum_cons] at h
    omega

theorem pieces_lengths {α : Type} (ns : List Nat) (xs : List α) (h : ns.sum ≤ xs.length) : (pieces ns xs).map List.length = ns := by
  induction ns generalizing xs with
  | nil => rfl
  | cons n ns ih =>
    rw [List.sum_cons] at h
    simp only [pieces, List.map_cons, List.length_take]
    rw [ih _ (by rw [List.length_drop]; omega)]
    congr 1
    omega

theorem fmt_exact {ts : List Txt} {n : Nat} (h : ts.length = n) : fmt n ts = .ok (cell [] ++ ts.flatMap cell) := by
  unfold fmt
  rw [if_neg (by omega), List.take_of_length_le (by simp; omega)]
  rfl

theorem body_sections (cs : List (List Txt × List Txt)) (h : ∀ s ∈ cs, s.2.length = s.1.length) :
    body cs = ((cs.flatMap fun s => [.row (cell [] ++ s.1.flatMap cell), .row (cell [] ++ s.2.flatMap cell), .blank]) ++ [.blank], none) := by
  induction cs with
  | nil => rfl
  | cons s cs ih =>
    obtain ⟨ps, vs⟩ := s
    have h1 := h _ (.head _)
    rw [body, fmt_exact rfl, fmt_exact h1, ih fun s hs => h s (.tail _ hs)]
    rfl

theorem zip_lengths {α : Type} (a b : List (List α)) (h : a.map List.length = b.map List.length) :
    (∀ s ∈ a.zip b, s.2.length = s.1.length) ∧ (a.zip b).map Prod.fst = a ∧ (a.zip b).map Prod.snd = b := by
  induction a generalizing b with
  | nil =>
    cases b with
    | nil => simp
    | cons _ _ => simp at h
  | cons x a ih =>
    cases b with
    | nil => simp at h
    | cons y b =>
      simp only [List.map_cons, List.cons.injEq] at h
      obtain ⟨h1, h2⟩ := h
      obtain ⟨i1, i2, i3⟩ := ih b h2
      refine ⟨?_, by simp [i2], by simp [i3]⟩
      intro s hs
      rw [List.zip_cons_cons] at hs
      rcases List.mem_cons.1 hs with rfl | hs
      · exact h1.symm
      · exact i1 s hs

/-- the sections of the report -/
def secsOf (k : Nat) (names vals : List Txt) : List (List Txt × List Txt) :=
  (pieces (sizes names.length k) names).zip (pieces (sizes names.length k) vals)

theorem secsOf_spec {k : Nat} (hk0 : 0 < k) {names vals : List Txt} (hl : vals.length = names.length) :
    (∀ s ∈ secsOf k names vals, s.2.length = s.1.length) ∧ (secsOf k names vals).map Prod.fst = pieces (sizes names.length k) names ∧
      (secsOf k names vals).map Prod.snd = pieces (sizes names.length k) vals := by
  have e : (pieces (sizes names.length k) names).map List.length = (pieces (sizes names.length k) vals).map List.length := by
    rw [pieces_lengths _ _ (by rw [sum_sizes _ _ hk0]), pieces_lengths _ _ (by rw [sum_sizes _ _ hk0, hl])]
  exact zip_lengths _ _ e

theorem report_secs {c : Int} (hc : 8 < c) (nprior : Nat) {names vals : List Txt} (hl : vals.length = names.length) :
    0 < (lnum nprior c).toNat ∧
      report (some c) nprior (some names) vals = (Spec.Sections (secsOf (lnum nprior c).toNat names vals), none) := by
  have hpos : 0 < lnum nprior c := by
    unfold lnum
    have := Int.fdiv_nonneg (a := (nprior * 8 : Int)) (b := c - 8) (by positivity) (by omega)
    omega
  generalize hk : (lnum nprior c).toNat = k
  have hk0 : 0 < k := by omega
  refine ⟨hk0, ?_⟩
  have hb := body_sections _ (secsOf_spec hk0 hl).1
  unfold secsOf at hb
  unfold report arraySplit
  simp only [if_neg (show ¬ c = 8 by omega), if_neg (show ¬ lnum nprior c ≤ 0 by omega), hk, hl]
  rw [hb]
  rfl

/-- **C162 (complete).** If there is a terminal with more than eight columns and there are as many values as names, the report does not fail, and it
is a table in sections whose names are all names in their order, each once, with the values in their order below. -/
theorem C162_all_shown {c : Int} (hc : 8 < c) (nprior : Nat) {names vals : List Txt} (hl : vals.length = names.length) :
    ∃ secs : List (List Txt × List Txt), report (some c) nprior (some names) vals = (Spec.Sections secs, none) ∧
      (∀ s ∈ secs, s.2.length = s.1.length) ∧ (secs.map Prod.fst).flatten = names ∧ (secs.map Prod.snd).flatten = vals := by
  obtain ⟨hk0, hr⟩ := report_secs hc nprior hl
  obtain ⟨z1, z2, z3⟩ := secsOf_spec hk0 hl
  refine ⟨_, hr, z1, ?_, ?_⟩
  · rw [z2]; exact pieces_flatten _ _ (by rw [sum_sizes _ _ hk0])
  · rw [z3]; exact pieces_flatten _ _ (by rw [sum_sizes _ _ hk0, hl])

/-- **C162 (failures).** When the report fails, and how. -/
theorem C162_failures (cols : Option Int) (nprior : Nat) (names : Option (List Txt)) (vals : List Txt)
    (hl : ∀ ns, names = some ns → vals.length = ns.length) :
    (report cols nprior names vals).2 = match cols, names with
      | none, _ => some .noTerminal
      | some c, none => if c = 8 then some .zeroDivision else some .keyError
      | some c, some _ => if c = 8 then some .zeroDivision else if c < 8 ∧ 0 < nprior then some .valueError else none := by
  cases cols with
  | none => rfl
  | some c =>
    cases names with
    | none => simp only [report]; split_ifs <;> rfl
    | some ns =>
      by_cases h8 : c = 8
      · simp only [report, if_pos h8]
      · simp only [if_neg h8]
        have hl := hl ns rfl
        by_cases hc : 8 < c
        · obtain ⟨s, h1, _⟩ := C162_all_shown hc nprior hl
          rw [h1, if_neg (by omega)]
        · have hneg : c - 8 < 0 := by omega
          by_cases hn : 0 < nprior
          · have : lnum nprior c ≤ 0 := by
              unfold lnum
              have := Int.fdiv_neg_of_neg_of_pos (a := -(nprior * 8 : Int)) (b := -(c - 8)) (by omega) (by omega)
              rw [Int.neg_fdiv_neg] at this
              omega
            simp only [report, if_neg h8, arraySplit, if_pos this, if_pos (show c < 8 ∧ 0 < nprior from ⟨by omega, hn⟩)]
          · obtain rfl : nprior = 0 := by omega
            have : lnum 0 c = 1 := by simp [lnum]
            have e : pieces (sizes ns.length 1) ns = [ns] ∧ pieces (sizes ns.length 1) vals = [vals] := by
              simp [sizes, Nat.mod_one, pieces, hl]
              exact List.take_of_length_le hl.le
            simp only [report, if_neg h8, arraySplit, this, Int.toNat_one, hl, e.1, e.2]
            rw [if_neg (show ¬ (1 : Int) ≤ 0 by omega)]
            simp [body, fmt_exact, hl]

theorem cell_length {t : Txt} (h : t.length ≤ 8) : (cell t).length = 8 := by
  unfold cell
  rw [List.length_append, List.length_replicate]
  omega

theorem row_length {ts : List Txt} (h : ∀ t ∈ ts, t.length ≤ 8) : (ts.flatMap cell).length = 8 * ts.length := by
  induction ts with
  | nil => rfl
  | cons t ts ih =>
    rw [List.flatMap_cons, List.length_append, ih fun t ht => h t (.tail _ ht), cell_length (h t (.head _)), List.length_cons]
    omega

theorem size_bound {n k w s : Nat} (hk : n * 8 < k * w) (hs : s ∈ sizes n k) : 8 * s < w + 8 := by
  unfold sizes at hs
  have hk0 : 0 < k := by
    rcases Nat.eq_zero_or_pos k with rfl | h
    · simp at hk
    · exact h
  have h2 := Nat.div_add_mod n k
  have key : (s - 1) * k < n ∨ s ≤ n / k := by
    rcases List.mem_append.1 hs with h | h
    · obtain ⟨h1, rfl⟩ := List.mem_replicate.1 h
      left
      rw [Nat.add_sub_cancel, mul_comm]
      omega
    · right
      exact (List.mem_replicate.1 h).2.le
  rcases key with h | h
  · have : 8 * (s - 1) * k < w * k := by nlinarith
    have := Nat.lt_of_mul_lt_mul_right this
    omega
  · have h3 : s * k ≤ n := (Nat.le_div_iff_mul_le hk0).1 h
    have : 8 * s * k < w * k := by nlinarith
    have := Nat.lt_of_mul_lt_mul_right this
    omega

/-- **C162 (width, partial).** With names and values of at most eight characters, a row is less than eight characters wider than the terminal, and
not wider if the number of columns is a multiple of eight. Missing: other widths of the terminal. -/
theorem C162_width_partial {c : Int} (hc : 8 < c) {names vals : List Txt} (hl : vals.length = names.length) (hn : ∀ t ∈ names, t.length ≤ 8)
    (hv : ∀ t ∈ vals, t.length ≤ 8) {t : Txt} (ht : Line.row t ∈ (report (some c) names.length (some names) vals).1) :
    (t.length : Int) < c + 8 ∧ (8 ∣ c → (t.length : Int) ≤ c) := by
  obtain ⟨hk0, hr⟩ := report_secs hc names.length hl
  obtain ⟨z1, z2, z3⟩ := secsOf_spec hk0 hl
  have hbig : names.length * 8 < (lnum names.length c).toNat * (c - 8).toNat := by
    have h1 := Int.fdiv_mul_add_fmod (names.length * 8 : Int) (c - 8)
    have h2 := Int.fmod_lt_of_pos (names.length * 8 : Int) (b := c - 8) (by omega)
    have h3 : ((lnum names.length c).toNat : Int) = Int.fdiv (names.length * 8) (c - 8) + 1 := by
      unfold lnum at hk0 ⊢
      omega
    have h4 : ((c - 8).toNat : Int) = c - 8 := by omega
    have : (names.length * 8 : Int) < ((lnum names.length c).toNat : Int) * ((c - 8).toNat : Int) := by
      rw [h3, h4]
      nlinarith
    exact_mod_cast this
  rw [hr] at ht
  generalize (lnum names.length c).toNat = k at *
  have hw : ∃ s ∈ secsOf k names vals, t.length = 8 * (s.1.length + 1) := by
    unfold Spec.Sections at ht
    simp only [List.cons_append, List.mem_cons, List.mem_append, List.mem_flatMap, reduceCtorEq, false_or, List.not_mem_nil, or_false,
      Line.row.injEq] at ht
    obtain ⟨s, hs, ht⟩ := ht
    have m1 : ∀ t ∈ s.1, t ∈ names := by
      intro t ht
      have h1 : s.1 ∈ pieces (sizes names.length k) names := by rw [← z2]; exact List.mem_map_of_mem hs
      have h2 := pieces_flatten (sizes names.length k) names (by rw [sum_sizes _ _ hk0])
      rw [← h2]
      exact List.mem_flatten.2 ⟨_, h1, ht⟩
    have m2 : ∀ t ∈ s.2, t ∈ vals := by
      intro t ht
      have h1 : s.2 ∈ pieces (sizes names.length k) vals := by rw [← z3]; exact List.mem_map_of_mem hs
      have h2 := pieces_flatten (sizes names.length k) vals (by rw [sum_sizes _ _ hk0, hl])
      rw [← h2]
      exact List.mem_flatten.2 ⟨_, h1, ht⟩
    refine ⟨s, hs, ?_⟩
    rcases ht with rfl | rfl
    · rw [List.length_append, row_length fun t ht => hn t (m1 t ht), cell_length (by simp)]
      omega
    · rw [List.length_append, row_length fun t ht => hv t (m2 t ht), cell_length (by simp), z1 s hs]
      omega
  obtain ⟨s, hs, hlen⟩ := hw
  have hsz : s.1.length ∈ sizes names.length k := by
    rw [← pieces_lengths (sizes names.length k) names (by rw [sum_sizes _ _ hk0]), ← z2]
    exact List.mem_map_of_mem (List.mem_map_of_mem hs)
  have := size_bound hbig hsz
  refine ⟨by omega, fun h8 => ?_⟩
  obtain ⟨d, rfl⟩ := h8
  omega

/-- **C162 (width, fails in general):** four parameters on a terminal with twenty columns: a row has 24 characters. -/
theorem C162_width_refuted : ∃ (c : Int) (names vals : List Txt), 8 < c ∧ vals.length = names.length ∧ (∀ t ∈ names, t.length ≤ 8) ∧
    (∀ t ∈ vals, t.length ≤ 8) ∧ ∃ t, Line.row t ∈ (report (some c) names.length (some names) vals).1 ∧ c < t.length :=
  ⟨20, ["a".toList, "b".toList, "c".toList, "d".toList], ["1".toList, "2".toList, "3".toList, "4".toList], by decide, by decide, by decide, by decide,
    "               a       b".toList, by decide +kernel, by decide⟩

/-- Values without a name are left out without an error; a missing value is an error. -/
theorem C162_unequal :
    report (some 80) 1 (some ["a".toList]) ["1".toList, "2".toList] =
      report (some 80) 1 (some ["a".toList]) ["1".toList] ∧
    (report (some 80) 2 (some ["a".toList, "b".toList]) ["1".toList]).2 = some .indexError := by
  constructor <;> decide +kernel

/-- **C162**: a report in two sections. -/
theorem C162_hypotheses_met : report (some 24) 3 (some ["a".toList, "b".toList, "c".toList]) ["1".toList, "2".toList, "3".toList] =
    ([.header, .row "               a       b".toList, .row "               1       2".toList, .blank,
      .row "               c".toList, .row "               3".toList, .blank, .blank], none) := by
  decide +kernel

end Pydsge
