import Verif.Props.Report
import Verif.Props.ParSets
import Verif.Props.Mcmc

/-!
# Exact conditions, fourth set: C76, C162
-/

set_option autoImplicit false
set_option linter.unusedSectionVars false
set_option linter.unusedSimpArgs false

namespace Pydsge

open Pydsge.Report

/-- The lengths of the rows of a report are those of its sections. -/
theorem rows_lengths {c : Int} (hc : 8 < c) {names vals : List Txt} (hl : vals.length = names.length) (hn : ∀ t ∈ names, t.length ≤ 8)
    (hv : ∀ t ∈ vals, t.length ≤ 8) (L : Nat) :
    (∃ t, Line.row t ∈ (report (some c) names.length (some names) vals).1 ∧ t.length = L) ↔
      ∃ s ∈ sizes names.length (lnum names.length c).toNat, L = 8 * (s + 1) := by
  obtain ⟨hk0, hr⟩ := report_secs hc names.length hl
  obtain ⟨z1, z2, z3⟩ := secsOf_spec hk0 hl
  rw [hr]
  generalize (lnum names.length c).toNat = k at *
  have mem1 : ∀ s ∈ secsOf k names vals, ∀ t ∈ s.1, t ∈ names := by
    intro s hs t ht
    have h1 : s.1 ∈ pieces (sizes names.length k) names := by rw [← z2]; exact List.mem_map_of_mem hs
    have h2 := pieces_flatten (sizes names.length k) names (by rw [sum_sizes _ _ hk0])
    rw [← h2]
    exact List.mem_flatten.2 ⟨_, h1, ht⟩
  have mem2 : ∀ s ∈ secsOf k names vals, ∀ t ∈ s.2, t ∈ vals := by
    intro s hs t ht
    have h1 : s.2 ∈ pieces (sizes names.length k) vals := by rw [← z3]; exact List.mem_map_of_mem hs
    have h2 := pieces_flatten (sizes names.length k) vals (by rw [sum_sizes _ _ hk0, hl])
    rw [← h2]
    exact List.mem_flatten.2 ⟨_, h1, ht⟩
  have len1 : ∀ s ∈ secsOf k names vals, (cell [] ++ s.1.flatMap cell).length = 8 * (s.1.length + 1) := by
    intro s hs
    rw [List.length_append, row_length fun t ht => hn t (mem1 s hs t ht), cell_length (by simp)]
    omega
  have len2 : ∀ s ∈ secsOf k names vals, (cell [] ++ s.2.flatMap cell).length = 8 * (s.1.length + 1) := by
    intro s hs
    rw [List.length_append, row_length fun t ht => hv t (mem2 s hs t ht), cell_length (by simp), z1 s hs]
    omega
  have hsz : ∀ n, n ∈ sizes names.length k ↔ ∃ s ∈ secsOf k names vals, s.1.length = n := by
    intro n
    rw [← pieces_lengths (sizes names.length k) names (by rw [sum_sizes _ _ hk0]), ← z2]
    simp only [List.mem_map]
    constructor
    · rintro ⟨a, ⟨s, hs, rfl⟩, h⟩
      exact ⟨s, hs, h⟩
    · rintro ⟨s, hs, h⟩
      exact ⟨s.1, ⟨s, hs, rfl⟩, h⟩
  unfold Spec.Sections
  simp only [List.cons_append, List.mem_cons, List.mem_append, List.mem_flatMap, reduceCtorEq, false_or, List.not_mem_nil, or_false,
    Line.row.injEq]
  constructor
  · rintro ⟨t, ⟨s, hs, ht⟩, rfl⟩
    refine ⟨s.1.length, (hsz _).2 ⟨s, hs, rfl⟩, ?_⟩
    rcases ht with rfl | rfl
    · exact len1 s hs
    · exact len2 s hs
  · rintro ⟨n, hn', rfl⟩
    obtain ⟨s, hs, rfl⟩ := (hsz n).1 hn'
    exact ⟨_, ⟨s, hs, .inl rfl⟩, len1 s hs⟩

/-- **C162 (width, exact).** With names and values of at most eight characters, the report of `n` parameters fits a terminal of `c` columns exactly if its
longest section does, where `n * 8 // (c - 8) + 1` is the number of sections. -/
theorem C162_width_exact {c : Nat} (hc : 8 < c) {names vals : List Txt} (hl : vals.length = names.length) (hn : ∀ t ∈ names, t.length ≤ 8)
    (hv : ∀ t ∈ vals, t.length ≤ 8) {k : Nat} (hk : k = names.length * 8 / (c - 8) + 1) :
    (∀ t, Line.row t ∈ (report (some c) names.length (some names) vals).1 → t.length ≤ c) ↔ 8 * ((names.length + k - 1) / k + 1) ≤ c := by
  have hkl : (lnum names.length (c : Int)).toNat = k := by
    subst hk
    unfold lnum
    have : Int.fdiv ((names.length : Int) * 8) ((c : Int) - 8) = ((names.length * 8 / (c - 8) : Nat) : Int) := by
      have e : (c : Int) - 8 = ((c - 8 : Nat) : Int) := by omega
      rw [e, Int.fdiv_eq_ediv_of_nonneg _ (by omega)]
      norm_cast
    rw [this]
    exact Int.toNat_natCast (names.length * 8 / (c - 8) + 1)
  have hr := rows_lengths (c := (c : Int)) (by omega) hl hn hv
  rw [hkl] at hr
  have hk0 : 0 < k := by rw [hk]; exact Nat.succ_pos _
  have hmax : (names.length + k - 1) / k ∈ sizes names.length k := by
    unfold sizes
    generalize names.length = n
    have h2 := Nat.div_add_mod n k
    have h3 := Nat.mod_lt n hk0
    rw [List.mem_append, List.mem_replicate, List.mem_replicate]
    by_cases h0 : n % k = 0
    · right
      refine ⟨by omega, ?_⟩
      rw [show n + k - 1 = (k - 1) + k * (n / k) by omega, Nat.add_mul_div_left _ _ hk0, Nat.div_eq_of_lt (by omega), zero_add]
    · left
      refine ⟨h0, ?_⟩
      rw [show n + k - 1 = (n % k - 1) + k * (n / k + 1) by rw [mul_add]; omega, Nat.add_mul_div_left _ _ hk0, Nat.div_eq_of_lt (by omega), zero_add]
  have hle : ∀ s ∈ sizes names.length k, s ≤ (names.length + k - 1) / k := by
    intro s hs
    unfold sizes at hs
    generalize names.length = n at *
    have h2 := Nat.div_add_mod n k
    rw [Nat.le_div_iff_mul_le hk0]
    rcases List.mem_append.1 hs with h | h
    · obtain ⟨h1, rfl⟩ := List.mem_replicate.1 h
      rw [add_mul, mul_comm]
      omega
    · obtain ⟨-, rfl⟩ := List.mem_replicate.1 h
      rw [mul_comm]
      omega
  constructor
  · intro h
    obtain ⟨t, ht, hL⟩ := (hr _).2 ⟨_, hmax, rfl⟩
    rw [← hL]
    exact h t ht
  · intro h t ht
    obtain ⟨s, hs, hL⟩ := (hr _).1 ⟨t, ht, rfl⟩
    rw [hL]
    have := hle s hs
    omega

section Start
open Pydsge.Params
variable {K PP VV HX LS TT QQ : Type} [Field K] [LinearOrder K] {S : Solver K PP VV HX LS TT QQ} {D : Decl K} {dr : Draws K}
  {ob : Params.Obj K PP VV HX LS TT QQ}

/-- **C76 (exact).** The default starting values of a prepared model: one vector with the prior means if the posterior is tempered, else one vector
with the mode if it is known, else one vector with the initial values; or a `KeyError` if there are none of these. -/
theorem C76_start_exact (h : WF D) (p : Prior K) (hp : D.prior = some p) (hf : Fits p ob) (hn : ∀ s ∈ ["best", "prior_mean"], s ∉ D.names ∧ s ∉ D.pfNames)
    {v₀ : List K} (hv : ob.a.par = some v₀) (hd : ob.ndim ≠ none) (tempered : Bool) :
    (tempered = true ∨ ob.modeX ≠ none ∨ ob.initValue ≠ none →
      ∃ w, defaultStart S D dr ob tempered = .ok (.cand (.vec w)) ∧ w.length = p.names.length ∧
        ∀ j : Nat, w[j]? = Spec.DocValue D p ob (if tempered then "prior_mean" else if ob.modeX = none then "init" else "mode") j) ∧
    (tempered = false → ob.modeX = none → ob.initValue = none → defaultStart S D dr ob tempered = .error .keyError) := by
  have idx : ∀ (s : String) (l : List String), s ∉ l → l.idxOf? s = none := by
    intro s l h
    simpa [List.idxOf?_eq_none_iff] using h
  obtain ⟨w, hw, hwl, hwv⟩ := calib_value h p hp
  unfold defaultStart getPar
  rw [startPars_some hv]
  cases tempered with
  | true =>
    obtain ⟨h1, h2⟩ := hn "prior_mean" (by simp)
    simp only [if_true, idx _ _ h1, idx _ _ h2, String.reduceEq, if_false]
    rcases hns : namedSet D dr ob "prior_mean" 1 with ⟨ob2, e | c⟩
    · simp [namedSet, isMode, hp] at hns
    · obtain ⟨u, rfl, hu, hj⟩ := namedSet_doc h p hp ob hf "prior_mean" (by decide) 1 hns
      refine ⟨fun _ => ⟨u, by simp [candPar], hu, hj⟩, fun h => (by cases h)⟩
  | false =>
    obtain ⟨h1, h2⟩ := hn "best" (by simp)
    simp only [Bool.false_eq_true, if_false, idx _ _ h1, idx _ _ h2, String.reduceEq, if_true, false_or]
    unfold bestSet
    rcases hns : namedSet D dr ob "mode" 1 with ⟨ob2, e | c⟩
    · have hm : ob.modeX = none ∧ ob2 = { ob with a := { ob.a with par := some D.parFix } } := by
        unfold namedSet at hns
        cases hm : ob.modeX with
        | none => simp [isMode, hm] at hns; exact ⟨rfl, by rw [← hns.1, ← hm]⟩
        | some v => simp [isMode, hm] at hns
      obtain ⟨hm, rfl⟩ := hm
      simp only [hm, if_true, ne_eq, not_true, false_or]
      cases hi : ob.initValue with
      | none =>
        refine ⟨fun h => absurd rfl h, fun _ _ _ => ?_⟩
        unfold namedSet
        simp [isMode, hi]
      | some init =>
        refine ⟨fun _ => ?_, fun _ _ h => (by cases h)⟩
        rcases hni : namedSet D dr { ob with a := { ob.a with par := some D.parFix } } "init" 1 with ⟨ob3, e' | c⟩
        · unfold namedSet at hni
          cases hdd : ob.ndim with
          | none => exact absurd hdd hd
          | some d => simp [isMode, hi, hdd, hp, hw] at hni
        · obtain ⟨u, rfl, hu, hj⟩ := namedSet_doc h p hp { ob with a := { ob.a with par := some D.parFix } } ⟨hf.entries, hf.init, hf.mode⟩ "init" (by decide) 1 hni
          refine ⟨u, ?_, hu, fun j => ?_⟩
          · simp only [hm, hi] at hni
            simp [hni, candPar]
          · rw [hj j]; rfl
    · obtain ⟨u, rfl, hu, hj⟩ := namedSet_doc h p hp ob hf "mode" (by decide) 1 hns
      have hm : ob.modeX ≠ none := by
        intro hm
        unfold namedSet at hns
        simp [isMode, hm] at hns
      refine ⟨fun _ => ⟨u, by simp [candPar], hu, ?_⟩, fun _ h => absurd h hm⟩
      rw [if_neg hm]
      exact hj

end Start

end Pydsge
