import Verif.Props.Text

/-!
# C134, C136: when exactly lines are continued, and comments can be left out
-/

set_option autoImplicit false
set_option linter.unusedSectionVars false
set_option linter.unusedSimpArgs false

namespace Pydsge.Text

/-- A replacement that keeps the number of some character in the pattern keeps it in the text. -/
theorem count_replace {pat rep : Txt} (hp : pat ≠ []) (d : Char) (hd : rep.count d = pat.count d) (s : Txt) :
    (replace pat rep s).count d = s.count d := by
  induction hn : s.length using Nat.strong_induction_on generalizing s with
  | _ n ih =>
    cases s with
    | nil => rw [replace_nil]
    | cons c cs =>
      by_cases h : pat.isPrefixOf (c :: cs) = true
      · obtain ⟨t, ht⟩ := List.isPrefixOf_iff_prefix.1 h
        rw [← ht, replace_hit hp, List.count_append, List.count_append, hd, ih t.length ?_ t rfl]
        have h1 := congrArg List.length ht
        have h2 : 0 < pat.length := List.length_pos_iff.2 hp
        simp only [List.length_append] at h1
        omega
      · rw [replace_skip (Bool.not_eq_true _ ▸ h), List.count_cons, List.count_cons, ih cs.length (by simp at hn; omega) cs rfl]

theorem last_newline (l : Txt) : (l ++ ['\n']).getLast? = some '\n' := by simp

theorem count_tilde (s : Txt) : (tilde s).count '\n' = s.count '\n' := by
  unfold tilde
  rw [count_replace (by decide) _ (by decide), count_replace (by decide) _ (by decide), count_replace (by decide) _ (by decide)]

theorem count_dropComments (cm bl : Bool) (s : Txt) : (dropComments cm bl s).count '\n' = s.count '\n' := by
  induction s generalizing cm bl with
  | nil => rfl
  | cons c cs ih =>
    unfold dropComments
    by_cases h : c = '\n'
    · rw [if_pos h, List.count_cons, List.count_cons, ih]
    · rw [if_neg h]
      have h' : (c == '\n') = false := by simpa using h
      split_ifs
      · rw [List.count_cons, ih, h']; simp
      · rw [List.count_cons, ih, h']; simp
      · rw [List.count_cons, List.count_cons, ih]

theorem count_prep (s : Txt) : (prep s).count '\n' = (joinLines (chars s)).count '\n' := count_tilde _

/-- The first character that is not a semicolon. -/
def firstChar (b : Txt) : Option Char := (b.filter (· ≠ ';')).head?

theorem chars_nil : chars [] = [] := by simp [chars, caret_eq, semi_eq]

theorem chars_cons (x : Char) (xs : Txt) : chars (x :: xs) = (if x = '^' then ['*', '*'] else if x = ';' then [] else [x]) ++ chars xs := by
  rw [show x :: xs = [x] ++ xs from rfl, chars_append]
  congr 1
  by_cases h : x = '^'
  · simp [chars, caret_eq, semi_eq, h]
  · by_cases h2 : x = ';' <;> simp [chars, caret_eq, semi_eq, h, h2]

theorem chars_first (b : Txt) : (chars b).head? = some '\n' ↔ firstChar b = some '\n' := by
  induction b with
  | nil => simp [chars_nil, firstChar]
  | cons x xs ih =>
    rw [chars_cons]
    unfold firstChar at ih ⊢
    by_cases h : x = '^'
    · subst h; simp
    · by_cases h2 : x = ';'
      · subst h2
        simpa using ih
      · simp [h, h2]

theorem chars_last_iff (a : Txt) : (chars a).getLast? = some '@' ↔ lastChar a = some '@' := by
  refine ⟨chars_last a '@' (by decide), ?_⟩
  induction a using List.reverseRecOn with
  | nil => simp [lastChar]
  | append_singleton a x ih =>
    intro h
    rw [chars_append, chars_cons, chars_nil]
    unfold lastChar at ih h
    rw [List.filter_append] at h
    by_cases h1 : x = '^'
    · subst h1; simp at h
    · by_cases h2 : x = ';'
      · subst h2
        simpa using ih (by simpa using h)
      · simp [h1, h2] at h ⊢
        exact h

/-- **C134, exactly.** A line that ends in `@` and `n` blanks is continued by the next line iff `n ≤ 1`, and not (the `@` comes after another one and the next line is
empty). Semicolons count for nothing. -/
theorem C134_continuation_iff (n : Nat) (a b : Txt) :
    Spec.Continues n a b ↔ n ≤ 1 ∧ ¬ (lastChar a = some '@' ∧ firstChar b = some '\n') := by
  have hs : chars (a ++ '@' :: List.replicate n ' ' ++ '\n' :: b) = chars a ++ ('@' :: List.replicate n ' ' ++ '\n' :: chars b) := by
    rw [List.append_assoc, chars_append]
    congr 1
    rw [show '@' :: List.replicate n ' ' ++ '\n' :: b = ('@' :: List.replicate n ' ' ++ ['\n']) ++ b by simp, chars_append, chars_plain]
    · simp
    · simp
    · simp
  have hl : joinLines (chars (a ++ '@' :: List.replicate n ' ' ++ '\n' :: b)) =
      joinLines (chars a) ++ joinLines ('@' :: List.replicate n ' ' ++ '\n' :: chars b) := by
    rw [hs, joinLines_append]
    · intro _ r; simp
    · intro _ r; simp
  have hr0 : chars (a ++ ' ' :: b) = chars a ++ ' ' :: chars b := by
    rw [chars_append, chars_cons]; rfl
  have hsmall : n ≤ 1 → joinLines ('@' :: List.replicate n ' ' ++ '\n' :: chars b) = ' ' :: joinLines (chars b) := by
    intro hn
    rcases Nat.le_one_iff_eq_zero_or_eq_one.1 hn with rfl | rfl
    · exact joinLines.eq_2 _
    · exact joinLines.eq_3 _
  have hbig : ¬ n ≤ 1 → (joinLines ('@' :: List.replicate n ' ' ++ '\n' :: chars b)).count '\n' = (joinLines (chars b)).count '\n' + 1 := by
    intro hn
    obtain ⟨k, rfl⟩ : ∃ k, n = k + 2 := ⟨n - 2, by omega⟩
    have e : '@' :: List.replicate (k + 2) ' ' ++ '\n' :: chars b = ('@' :: ' ' :: (List.replicate (k + 1) ' ' ++ ['\n'])) ++ chars b := by
      simp [List.replicate_succ]
    have hno : ¬ (['@'] <:+ '@' :: ' ' :: (List.replicate (k + 1) ' ' ++ ['\n'])) := by
      intro h
      have := (suffix_last h).symm.trans (last_newline ('@' :: ' ' :: List.replicate (k + 1) ' '))
      simp at this
    have hno2 : ¬ (['@', ' '] <:+ '@' :: ' ' :: (List.replicate (k + 1) ' ' ++ ['\n'])) := by
      intro h
      have := (suffix_last2 h).symm.trans (last_newline ('@' :: ' ' :: List.replicate (k + 1) ' '))
      simp at this
    rw [e, joinLines_append _ _ (fun h => absurd h hno) (fun h => absurd h hno2), List.count_append, joinLines_cons, joinLines_plain]
    · simp [List.count_replicate]
      omega
    · simp
    · intro _ r; simp
    · intro _ r
      simp [List.replicate_succ]
  by_cases hbad : lastChar a = some '@' ∧ firstChar b = some '\n'
  · refine ⟨fun h => ?_, fun h => absurd hbad h.2⟩
    exfalso
    have h1 := congrArg (List.count '\n') h
    rw [count_prep, count_prep, hl, hr0] at h1
    obtain ⟨A, hA⟩ : ∃ A, chars a = A ++ ['@'] := by
      have := (chars_last_iff a).2 hbad.1
      exact ⟨_, (List.dropLast_append_getLast? '@' this).symm⟩
    obtain ⟨B, hB⟩ : ∃ B, chars b = '\n' :: B := by
      have := (chars_first b).2 hbad.2
      cases hb : chars b with
      | nil => rw [hb] at this; cases this
      | cons x xs =>
        rw [hb] at this
        simp only [List.head?_cons, Option.some.injEq] at this
        exact ⟨xs, by rw [this]⟩
    have h2 : joinLines (chars a ++ ' ' :: chars b) = joinLines A ++ ' ' :: joinLines B := by
      rw [hA, hB, List.append_assoc, joinLines_append]
      · rfl
      · intro _ r; simp
      · intro _ r; simp
    have h3 : joinLines (chars a) = joinLines A ++ ['@'] := by
      rw [hA, joinLines_append]
      · rfl
      · intro _ r; simp
      · intro _ r; simp
    have h4 : joinLines (chars b) = '\n' :: joinLines B := by
      rw [hB, joinLines_cons] <;> intro h <;> exact absurd h (by decide)
    rw [h2, h3] at h1
    by_cases hn : n ≤ 1
    · rw [hsmall hn, h4] at h1
      simp [List.count_append] at h1
    · rw [List.count_append, hbig hn, h4] at h1
      simp [List.count_append] at h1
      omega
  · have hr : joinLines (chars (a ++ ' ' :: b)) = joinLines (chars a) ++ ' ' :: joinLines (chars b) := by
      rw [hr0, joinLines_append]
      · rw [joinLines_cons (fun h => absurd h (by decide)) (fun h => absurd h (by decide))]
      · intro h r
        refine ⟨by simp, fun hb => hbad ⟨(chars_last_iff a).1 (suffix_last h), (chars_first b).1 ?_⟩⟩
        simp only [List.cons.injEq, true_and] at hb
        rw [hb]; rfl
      · intro _ r; simp
    rw [and_iff_left hbad]
    constructor
    · intro h
      by_contra hn
      have h1 := congrArg (List.count '\n') h
      rw [count_prep, count_prep, hl, hr, List.count_append, hbig hn] at h1
      simp [List.count_append] at h1
    · intro hn
      unfold Spec.Continues prep
      unfold chars at hl hr
      rw [hl, hr]
      have := hsmall hn
      unfold chars at this
      rw [this]

/-- C134: all cases of the condition occur. -/
theorem C134_iff_hypotheses_met : Spec.Continues 1 "x = y".toList " + z".toList ∧ ¬ Spec.Continues 2 "x = y".toList " + z".toList ∧
    Spec.Continues 0 "@".toList "z".toList ∧ ¬ Spec.Continues 0 "@;".toList ";\n".toList := by
  refine ⟨(C134_continuation_iff ..).2 (by decide), fun h => ?_, (C134_continuation_iff ..).2 (by decide), fun h => ?_⟩
  · exact absurd ((C134_continuation_iff ..).1 h) (by decide)
  · exact absurd ((C134_continuation_iff ..).1 h) (by decide)

/-- **C136, exactly, for comments without the continuation sign.** The comment can be left out iff there is no continuation sign right before it. -/
theorem C136_comment_removed_iff (a c b : Txt) (hc : '\n' ∉ c) (hat : '@' ∉ c) :
    yamlView (prep (commented a c b)) = yamlView (prep (a ++ ' ' :: '\n' :: b)) ↔ lastChar a ≠ some '@' := by
  refine ⟨fun h ha => ?_, C136_comment_removed_partial a c b hc hat⟩
  have h1 := congrArg (List.count '\n') h
  unfold yamlView at h1
  rw [count_dropComments, count_dropComments, count_prep, count_prep] at h1
  obtain ⟨A, hA⟩ : ∃ A, chars a = A ++ ['@'] :=
    ⟨_, (List.dropLast_append_getLast? '@' ((chars_last_iff a).2 ha)).symm⟩
  have hno : '@' ∉ chars c := chars_no (by decide) hat
  have h2 : joinLines (chars (commented a c b)) = joinLines A ++ '@' :: ' ' :: '#' :: chars c ++ '\n' :: joinLines (chars b) := by
    have e : chars (commented a c b) = A ++ (['@'] ++ ((' ' :: '#' :: chars c ++ ['\n']) ++ chars b)) := by
      unfold commented
      rw [chars_append, chars_cons, chars_cons, chars_append, chars_cons, hA]
      simp
    rw [e, joinLines_append _ _ (fun _ r => by simp) (fun _ r => by simp), joinLines_append _ _ (fun _ r => by simp) (fun _ r => by simp),
      joinLines_append (' ' :: '#' :: chars c ++ ['\n']), joinLines_plain (s := ' ' :: '#' :: chars c ++ ['\n'])]
    · simp [joinLines]
    · simp [hno]
    · intro h
      have := (suffix_last h).symm.trans (last_newline (' ' :: '#' :: chars c))
      simp at this
    · intro h
      have := (suffix_last2 h).symm.trans (last_newline (' ' :: '#' :: chars c))
      simp at this
  have h3 : joinLines (chars (a ++ ' ' :: '\n' :: b)) = joinLines A ++ ' ' :: joinLines (chars b) := by
    have e : chars (a ++ ' ' :: '\n' :: b) = A ++ '@' :: ' ' :: '\n' :: chars b := by
      rw [chars_append, chars_cons, chars_cons, hA]
      simp
    rw [e, joinLines_append _ _ (fun _ r => by simp) (fun _ r => by simp)]
    rfl
  rw [h2, h3] at h1
  have h4 : (chars c).count '\n' = 0 := List.count_eq_zero.2 (chars_no (by decide) hc)
  simp [List.count_append, h4] at h1

end Pydsge.Text
