import Verif.Model.Text
import Mathlib.Tactic.Common
import Mathlib.Data.List.Infix

/-!
# The text of a model file (C133-C136)
-/

set_option autoImplicit false
set_option linter.unusedSimpArgs false

namespace Pydsge.Text

/-! ## Lemmas about `replace` -/

theorem replace_nil (pat rep : Txt) : replace pat rep [] = [] := by rw [replace]

theorem replace_skip {pat rep : Txt} {c : Char} {cs : Txt} (h : pat.isPrefixOf (c :: cs) = false) :
    replace pat rep (c :: cs) = c :: replace pat rep cs := by
  rw [replace, if_neg (by simp [h])]

theorem replace_hit {pat rep : Txt} (hp : pat ≠ []) (cs : Txt) : replace pat rep (pat ++ cs) = rep ++ replace pat rep cs := by
  cases pat with
  | nil => exact absurd rfl hp
  | cons p ps =>
    rw [List.cons_append, replace, if_pos (by simp [List.isPrefixOf_iff_prefix])]
    simp

theorem replace_ne {p : Char} {ps rep : Txt} {c : Char} (cs : Txt) (h : c ≠ p) :
    replace (p :: ps) rep (c :: cs) = c :: replace (p :: ps) rep cs :=
  replace_skip (by simp [List.isPrefixOf, Ne.symm h])

/-- A pattern that begins like the text does, but does not fit. -/
theorem replace_miss {p d : Char} {ps rep : Txt} {n : Nat} (cs : Txt) (c : Char) (h : (c :: cs)[n]? ≠ some d) (hd : (p :: ps)[n]? = some d) :
    replace (p :: ps) rep (c :: cs) = c :: replace (p :: ps) rep cs := by
  refine replace_skip ?_
  by_contra hc
  rw [Bool.not_eq_false, List.isPrefixOf_iff_prefix] at hc
  obtain ⟨t, ht⟩ := hc
  apply h
  rw [← ht, List.getElem?_append_left (by rw [List.getElem?_eq_some_iff] at hd; exact hd.1), hd]

/-- A text can be cut before a character that occurs only at the beginning of the pattern, or not at all. -/
theorem replace_append {pat rep : Txt} (c : Char) (hc : c ∉ pat.tail) (a b : Txt) :
    replace pat rep (a ++ c :: b) = replace pat rep a ++ replace pat rep (c :: b) := by
  cases pat with
  | nil =>
    -- the empty pattern does not occur; the statement holds nevertheless
    have key : ∀ (n : Nat) (a : Txt), a.length ≤ n → replace [] rep (a ++ c :: b) = replace [] rep a ++ replace [] rep (c :: b) := by
      intro n
      induction n with
      | zero => intro a ha; rw [List.length_eq_zero_iff.1 (Nat.le_zero.1 ha)]; simp [replace_nil]
      | succ n ih =>
        intro a ha
        cases a with
        | nil => simp [replace_nil]
        | cons x xs =>
          rw [List.cons_append]
          conv_lhs => rw [replace]
          conv_rhs => rw [replace]
          simp only [List.isPrefixOf_nil_left, if_true, List.length_nil, Nat.zero_sub, List.drop_zero]
          rw [ih xs (by simpa using ha), List.append_assoc]
    exact key a.length a (le_refl _)
  | cons p ps =>
    have key : ∀ (n : Nat) (a : Txt), a.length ≤ n → replace (p :: ps) rep (a ++ c :: b) = replace (p :: ps) rep a ++ replace (p :: ps) rep (c :: b) := by
      intro n
      induction n with
      | zero => intro a ha; rw [List.length_eq_zero_iff.1 (Nat.le_zero.1 ha)]; simp [replace_nil]
      | succ n ih =>
        intro a ha
        cases a with
        | nil => simp [replace_nil]
        | cons x xs =>
          by_cases h : (p :: ps).isPrefixOf (x :: xs) = true
          · obtain ⟨t, ht⟩ := List.isPrefixOf_iff_prefix.1 h
            rw [← ht, List.append_assoc, replace_hit (by simp), replace_hit (by simp), List.append_assoc]
            congr 1
            refine ih t ?_
            have := congrArg List.length ht
            simp at this ha
            omega
          · have h' : (p :: ps).isPrefixOf (x :: (xs ++ c :: b)) = false := by
              by_contra hcon
              rw [Bool.not_eq_false, List.isPrefixOf_iff_prefix] at hcon
              rcases Nat.lt_or_ge xs.length ps.length with hl | hl
              · obtain ⟨t, ht⟩ := hcon
                have h1 : (p :: ps ++ t)[xs.length + 1]? = some c := by rw [ht]; simp
                rw [List.getElem?_append_left (by simpa using hl)] at h1
                apply hc
                simp only [List.tail_cons, List.getElem?_cons_succ] at h1 ⊢
                exact List.mem_of_getElem? h1
              · apply h
                rw [List.isPrefixOf_iff_prefix]
                rw [show x :: (xs ++ c :: b) = (x :: xs) ++ (c :: b) from rfl] at hcon
                exact List.prefix_of_prefix_length_le hcon (List.prefix_append _ _) (by simpa using hl)
            rw [List.cons_append, replace_skip h', replace_skip (Bool.eq_false_iff.2 h), ih xs (by simpa using ha), List.cons_append]
    exact key a.length a (le_refl _)

/-- A pattern of one character: each one is replaced. -/
theorem replace_single (p : Char) (rep : Txt) (s : Txt) : replace [p] rep s = s.flatMap fun c => if c = p then rep else [c] := by
  induction s with
  | nil => rw [replace_nil]; rfl
  | cons c cs ih =>
    by_cases h : c = p
    · subst h
      rw [show c :: cs = [c] ++ cs from rfl, replace_hit (by simp), ih]
      simp
    · rw [replace_ne _ h, ih]
      simp [h]

theorem caret_eq (s : Txt) : caret s = s.flatMap fun c => if c = '^' then ['*', '*'] else [c] := replace_single _ _ _

theorem semi_eq (s : Txt) : semi s = s.flatMap fun c => if c = ';' then [] else [c] := replace_single _ _ _

theorem caret_append (a b : Txt) : caret (a ++ b) = caret a ++ caret b := by simp [caret_eq]

theorem semi_append (a b : Txt) : semi (a ++ b) = semi a ++ semi b := by simp [semi_eq]

/-- Powers and semicolons. -/
def chars (s : Txt) : Txt := semi (caret s)

theorem chars_append (a b : Txt) : chars (a ++ b) = chars a ++ chars b := by simp [chars, caret_append, semi_append]

theorem chars_plain {s : Txt} (h1 : '^' ∉ s) (h2 : ';' ∉ s) : chars s = s := by
  rw [chars, caret_eq, semi_eq]
  induction s with
  | nil => rfl
  | cons c cs ih =>
    simp only [List.mem_cons, not_or] at h1 h2
    simp [Ne.symm h1.1, Ne.symm h2.1]
    have := ih h1.2 h2.2
    simpa using this

theorem mem_chars {c : Char} {s : Txt} (h : c ∈ chars s) : (c ∈ s ∨ c = '*') ∧ c ≠ '^' ∧ c ≠ ';' := by
  rw [chars, caret_eq, semi_eq] at h
  simp only [List.mem_flatMap] at h
  obtain ⟨d, ⟨e, he, hd⟩, hc⟩ := h
  by_cases h1 : e = '^'
  · rw [if_pos h1] at hd
    have : d = '*' := by simpa using hd
    subst this
    have : c = '*' := by simpa using hc
    subst this
    exact ⟨.inr rfl, by decide, by decide⟩
  · rw [if_neg h1] at hd
    have : d = e := by simpa using hd
    subst this
    by_cases h2 : d = ';'
    · rw [if_pos h2] at hc; simp at hc
    · rw [if_neg h2] at hc
      have : c = d := by simpa using hc
      subst this
      exact ⟨.inl he, h1, h2⟩

/-! ## Lemmas about `joinLines` -/

theorem joinLines_cons {c : Char} {cs : Txt} (h1 : c = '@' → ∀ r, cs ≠ '\n' :: r) (h2 : c = '@' → ∀ r, cs ≠ ' ' :: '\n' :: r) :
    joinLines (c :: cs) = c :: joinLines cs :=
  joinLines.eq_4 c cs (fun r hc hr => h1 hc r hr) (fun r hc hr => h2 hc r hr)

/-- A text can be cut where no continuation sign is torn apart. -/
theorem joinLines_append (a b : Txt) (h1 : ['@'] <:+ a → ∀ r, b ≠ '\n' :: r ∧ b ≠ ' ' :: '\n' :: r)
    (h2 : ['@', ' '] <:+ a → ∀ r, b ≠ '\n' :: r) : joinLines (a ++ b) = joinLines a ++ joinLines b := by
  fun_induction joinLines a with
  | case1 => rfl
  | case2 cs ih =>
    rw [List.cons_append, List.cons_append, joinLines.eq_2, List.cons_append,
      ih (fun h => h1 (h.trans ((List.suffix_cons _ _).trans (List.suffix_cons _ _))))
        (fun h => h2 (h.trans ((List.suffix_cons _ _).trans (List.suffix_cons _ _))))]
  | case3 cs ih =>
    rw [List.cons_append, List.cons_append, List.cons_append, joinLines.eq_3, List.cons_append,
      ih (fun h => h1 (h.trans ((List.suffix_cons _ _).trans ((List.suffix_cons _ _).trans (List.suffix_cons _ _)))))
        (fun h => h2 (h.trans ((List.suffix_cons _ _).trans ((List.suffix_cons _ _).trans (List.suffix_cons _ _)))))]
  | case4 c cs hn hb ih =>
    rw [List.cons_append, joinLines_cons, List.cons_append, ih (fun h => h1 (h.trans (List.suffix_cons _ _)))
      (fun h => h2 (h.trans (List.suffix_cons _ _)))]
    · intro hc r hr
      subst hc
      cases cs with
      | nil => exact (h1 (List.suffix_refl _) r).1 hr
      | cons x xs =>
        simp only [List.cons_append, List.cons.injEq] at hr
        exact hn xs rfl (by rw [hr.1])
    · intro hc r hr
      subst hc
      cases cs with
      | nil => exact (h1 (List.suffix_refl _) r).2 hr
      | cons x xs =>
        simp only [List.cons_append, List.cons.injEq] at hr
        cases xs with
        | nil =>
          rw [hr.1] at h2
          exact h2 (List.suffix_refl _) r hr.2
        | cons y ys =>
          simp only [List.cons_append, List.cons.injEq] at hr
          exact hb ys rfl (by rw [hr.1, hr.2.1])

theorem joinLines_plain {s : Txt} (h : '@' ∉ s) : joinLines s = s := by
  induction s with
  | nil => rfl
  | cons c cs ih =>
    simp only [List.mem_cons, not_or] at h
    rw [joinLines_cons (fun hc => absurd hc.symm h.1) (fun hc => absurd hc.symm h.1), ih h.2]

theorem suffix_last {a : Txt} {c : Char} (h : [c] <:+ a) : a.getLast? = some c := by
  obtain ⟨t, rfl⟩ := h; simp

theorem suffix_last2 {a : Txt} {c d : Char} (h : [c, d] <:+ a) : a.getLast? = some d := by
  obtain ⟨t, rfl⟩ := h; simp

theorem mem_of_suffix2 {a : Txt} {c d : Char} (h : [c, d] <:+ a) : c ∈ a := by
  obtain ⟨t, rfl⟩ := h; simp

/-! ## Further lemmas -/

theorem mem_replace {pat rep : Txt} {c : Char} {s : Txt} (h : c ∈ replace pat rep s) : c ∈ s ∨ c ∈ rep := by
  fun_induction replace pat rep s with
  | case1 => exact absurd h (by simp)
  | case2 x xs hx ih =>
    rw [List.mem_append] at h
    rcases h with h | h
    · exact .inr h
    · rcases ih h with h | h
      · exact .inl (List.mem_cons_of_mem _ (List.mem_of_mem_drop h))
      · exact .inr h
  | case3 x xs hx ih =>
    rw [List.mem_cons] at h
    rcases h with h | h
    · exact .inl (by simp [h])
    · rcases ih h with h | h
      · exact .inl (List.mem_cons_of_mem _ h)
      · exact .inr h

/-- Without some character of the pattern nothing is replaced. -/
theorem replace_absent {pat rep : Txt} {d : Char} (hd : d ∈ pat) {s : Txt} (h : d ∉ s) : replace pat rep s = s := by
  induction s with
  | nil => rw [replace_nil]
  | cons c cs ih =>
    rw [replace_skip, ih (fun hc => h (List.mem_cons_of_mem _ hc))]
    by_contra hcon
    rw [Bool.not_eq_false, List.isPrefixOf_iff_prefix] at hcon
    exact h (hcon.subset hd)

theorem replace_last {pat rep : Txt} {e : Char} (hr : rep.getLast? = some e) {s : Txt} (h : s.getLast? = some e) :
    (replace pat rep s).getLast? = some e := by
  fun_induction replace pat rep s with
  | case1 => exact h
  | case2 x xs hx ih =>
    rw [List.getLast?_append]
    cases hxs : xs.drop (pat.length - 1) with
    | nil => rw [replace_nil]; simpa using hr
    | cons y ys =>
      rw [hxs] at ih
      rw [ih]
      · rfl
      · have : (x :: xs).getLast? = (xs.drop (pat.length - 1)).getLast? := by
          have h0 : xs = xs.take (pat.length - 1) ++ (y :: ys) := by rw [← hxs, List.take_append_drop]
          rw [hxs]
          conv_lhs => rw [h0]
          rw [← List.cons_append, List.getLast?_append]
          simp [List.getLast?_cons]
        rw [← hxs, ← this, h]
  | case3 x xs hx ih =>
    cases xs with
    | nil => rw [replace_nil]; exact h
    | cons y ys =>
      rw [List.getLast?_cons_cons] at h
      rw [List.getLast?_cons, ih h]
      rfl

theorem mem_joinLines {c : Char} {s : Txt} (h : c ∈ joinLines s) : c ∈ s ∨ c = ' ' := by
  fun_induction joinLines s with
  | case1 => exact absurd h (by simp)
  | case2 cs ih =>
    rw [List.mem_cons] at h
    rcases h with h | h
    · exact .inr h
    · exact (ih h).imp (fun h => by simp [h]) id
  | case3 cs ih =>
    rw [List.mem_cons] at h
    rcases h with h | h
    · exact .inr h
    · exact (ih h).imp (fun h => by simp [h]) id
  | case4 x cs _ _ ih =>
    rw [List.mem_cons] at h
    rcases h with h | h
    · exact .inl (by simp [h])
    · exact (ih h).imp (fun h => by simp [h]) id

/-! ## C133: powers and semicolons -/

/-- C133: a power can be written `^` or `**`, anywhere in the file. -/
theorem C133_powers (a b : Txt) : prep (a ++ '^' :: b) = prep (a ++ '*' :: '*' :: b) := by
  have h : chars (a ++ '^' :: b) = chars (a ++ '*' :: '*' :: b) := by
    rw [chars_append, chars_append]
    congr 1
    simp [chars, caret_eq, semi_eq]
  unfold prep
  unfold chars at h
  rw [h]

/-- C133: semicolons have no influence, anywhere in the file. -/
theorem C133_semicolons (a b : Txt) : prep (a ++ ';' :: b) = prep (a ++ b) := by
  have h : chars (a ++ ';' :: b) = chars (a ++ b) := by
    rw [chars_append, chars_append]
    congr 1
    simp [chars, caret_eq, semi_eq]
  unfold prep
  unfold chars at h
  rw [h]

/-- C133: YAML never sees a `^` or a `;`. -/
theorem C133_none_left (s : Txt) : '^' ∉ prep s ∧ ';' ∉ prep s := by
  have key : ∀ c : Char, c ∈ prep s → c ∈ chars s ∨ c ∈ ['\n', ' ', '-'] := by
    intro c hc
    rcases mem_replace hc with hc | hc
    · rcases mem_replace hc with hc | hc
      · rcases mem_replace hc with hc | hc
        · rcases mem_joinLines hc with hc | hc
          · exact .inl hc
          · exact .inr (by simp [hc])
        · refine .inr ?_
          revert hc
          simp
          tauto
      · refine .inr ?_
        revert hc
        simp
        tauto
    · refine .inr ?_
      revert hc
      simp
      tauto
  constructor
  · intro h
    rcases key _ h with h | h
    · exact (mem_chars h).2.1 rfl
    · exact absurd h (by decide)
  · intro h
    rcases key _ h with h | h
    · exact (mem_chars h).2.2 rfl
    · exact absurd h (by decide)

/-- C133: a file without `^`, `;`, `@` and `~` is left as it is. -/
theorem C133_plain_unchanged (s : Txt) (h : ∀ c ∈ ['^', ';', '@', '~'], c ∉ s) : prep s = s := by
  have h1 : semi (caret s) = s := chars_plain (h _ (by decide)) (h _ (by decide))
  unfold prep tilde
  rw [h1, joinLines_plain (h _ (by decide))]
  have ht := h '~' (by decide)
  rw [replace_absent (d := '~') (by decide) ht, replace_absent (d := '~') (by decide) ht, replace_absent (d := '~') (by decide) ht]

/-- Preparing a text twice is not the same as preparing it once. -/
theorem C134_idempotent_refuted : ¬ ∀ s, prep (prep s) = prep s := by
  intro h
  exact absurd (h "@@\n\n".toList) (by decide +kernel)

example : prep "x = y^2;\n".toList = "x = y**2\n".toList := by decide +kernel

/-! ## C134: continued lines -/

/-- The last character that is not a semicolon. -/
def lastChar (a : Txt) : Option Char := (a.filter (· ≠ ';')).getLast?

theorem chars_last (a : Txt) (c : Char) (hc : c ≠ '*') : (chars a).getLast? = some c → lastChar a = some c := by
  induction a using List.reverseRecOn with
  | nil => intro h; exact absurd h (by simp [chars, caret_eq, semi_eq])
  | append_singleton a x ih =>
    rw [chars_append, lastChar, List.filter_append]
    by_cases hx : x = ';'
    · subst hx
      simpa [chars, caret_eq, semi_eq, lastChar] using ih
    · by_cases hx2 : x = '^'
      · subst hx2
        simp [chars, caret_eq, semi_eq]
        exact fun h => absurd h.symm hc
      · simp [chars, caret_eq, semi_eq, hx, hx2]

theorem chars_last2 (a : Txt) (c d : Char) (hc : c ≠ '*') (hd : d ≠ '*') : [c, d] <:+ chars a → [c, d] <:+ a.filter (· ≠ ';') := by
  induction a using List.reverseRecOn with
  | nil => intro h; exact absurd h (by simp [chars, caret_eq, semi_eq])
  | append_singleton a x ih =>
    rw [chars_append, List.filter_append]
    by_cases hx : x = ';'
    · subst hx
      simpa [chars, caret_eq, semi_eq] using ih
    · by_cases hx2 : x = '^'
      · subst hx2
        intro h
        have := suffix_last2 h
        simp [chars, caret_eq, semi_eq] at this
        exact absurd this.symm hd
      · intro h
        rw [chars_plain (s := [x]) (by simp [Ne.symm hx2]) (by simp [Ne.symm hx])] at h
        obtain ⟨t, ht⟩ := h
        have ht' : (t ++ [c]) ++ [d] = chars a ++ [x] := by simpa using ht
        obtain ⟨h1, h2⟩ := List.append_inj' ht' rfl
        have hl : lastChar a = some c := chars_last a c hc (by rw [← h1]; simp)
        obtain ⟨u, hu⟩ := List.getLast?_eq_some_iff.1 hl
        refine ⟨u, ?_⟩
        rw [hu]
        simp at h2
        simp [hx, h2]

/-- The continuation of a line: what follows a line that ends in `@`, with `n` blanks after it, belongs to the line. -/
def Spec.Continues (n : Nat) (a b : Txt) : Prop := prep (a ++ '@' :: List.replicate n ' ' ++ '\n' :: b) = prep (a ++ ' ' :: b)

/-- C134: a line that ends in `@`, with at most one blank after it, is continued by the next line (if the `@` is not preceded by another one). -/
theorem C134_continuation_partial (a b : Txt) (n : Nat) (hn : n ≤ 1) (ha : lastChar a ≠ some '@') : Spec.Continues n a b := by
  have ha' : ¬ ['@'] <:+ chars a := fun h => ha (chars_last a '@' (by decide) (suffix_last h))
  have hl : joinLines (chars (a ++ '@' :: List.replicate n ' ' ++ '\n' :: b)) = joinLines (chars a) ++ ' ' :: joinLines (chars b) := by
    have hs : chars ('@' :: List.replicate n ' ' ++ '\n' :: b) = '@' :: List.replicate n ' ' ++ '\n' :: chars b := by
      rw [show '@' :: List.replicate n ' ' ++ '\n' :: b = ('@' :: List.replicate n ' ' ++ ['\n']) ++ b by simp, chars_append, chars_plain]
      · simp
      · simp
      · simp
    rw [List.append_assoc, chars_append, hs, joinLines_append]
    · congr 1
      rcases Nat.le_one_iff_eq_zero_or_eq_one.1 hn with rfl | rfl
      · exact joinLines.eq_2 _
      · exact joinLines.eq_3 _
    · exact fun h => absurd h ha'
    · intro _ r; simp
  have hr : joinLines (chars (a ++ ' ' :: b)) = joinLines (chars a) ++ ' ' :: joinLines (chars b) := by
    have hs : chars (' ' :: b) = ' ' :: chars b := by
      rw [show ' ' :: b = [' '] ++ b from rfl, chars_append, chars_plain (by decide) (by decide)]; rfl
    rw [chars_append, hs, joinLines_append]
    · rw [joinLines_cons (fun h => absurd h (by decide)) (fun h => absurd h (by decide))]
    · exact fun h => absurd h ha'
    · intro _ r; simp
  unfold Spec.Continues prep
  unfold chars at hl hr
  rw [hl, hr]

/-- C134: two blanks after the `@`, and the line is not continued; nor is it in general after two `@`. -/
theorem C134_continuation_refuted : (¬ ∀ n a b, Spec.Continues n a b) ∧ (¬ ∀ a b, Spec.Continues 0 a b) := by
  constructor
  · intro h
    exact absurd (h 2 "x = y".toList " + z".toList) (by unfold Spec.Continues; decide +kernel)
  · intro h
    exact absurd (h "@".toList "\n".toList) (by unfold Spec.Continues; decide +kernel)

example : prep "x = y @\n   + z".toList = "x = y     + z".toList ∧ lastChar "x = y ".toList ≠ some '@' := by
  constructor <;> decide +kernel

/-! ## C135: list markers -/

/-- A list entry on a line of its own, indented by `n` blanks, after `a`; `mark` is the list marker. -/
def entry (mark : Char) (n : Nat) (a b : Txt) : Txt := a ++ '\n' :: List.replicate n ' ' ++ mark :: ' ' :: b

/-- `~` can be written for `-`. -/
def Spec.MarkersAgree (n : Nat) (a b : Txt) : Prop := prep (entry '~' n a b) = prep (entry '-' n a b)

theorem replace_blanks {rep : Txt} (n : Nat) (X : Txt) :
    replace "   ~ ".toList rep (List.replicate (n + 3) ' ' ++ '~' :: ' ' :: X) = List.replicate n ' ' ++ rep ++ replace "   ~ ".toList rep X := by
  induction n with
  | zero => exact replace_hit (pat := "   ~ ".toList) (by decide) X
  | succ n ih =>
    rw [show n + 1 + 3 = (n + 3) + 1 from rfl, List.replicate_succ, List.cons_append,
      show "   ~ ".toList = ' ' :: "  ~ ".toList from rfl,
      replace_miss (n := 3) (d := '~') _ _ (by simp [List.replicate_succ]) rfl,
      ← show "   ~ ".toList = ' ' :: "  ~ ".toList from rfl, ih]
    simp [List.replicate_succ]

theorem replace_newline {ps rep : Txt} (n : Nat) (X : Txt) (hX : '\n' ∉ X) (Y : Txt)
    (hfit : ('\n' :: ps).isPrefixOf ('\n' :: List.replicate n ' ' ++ X ++ Y) = false) :
    replace ('\n' :: ps) rep ('\n' :: List.replicate n ' ' ++ X ++ Y) = '\n' :: List.replicate n ' ' ++ X ++ replace ('\n' :: ps) rep Y := by
  rw [List.cons_append, List.cons_append] at *
  rw [replace_skip hfit]
  have key : ∀ Z : Txt, '\n' ∉ Z → replace ('\n' :: ps) rep (Z ++ Y) = Z ++ replace ('\n' :: ps) rep Y := by
    intro Z
    induction Z with
    | nil => intro _; rfl
    | cons z zs ih =>
      intro hz
      simp only [List.mem_cons, not_or] at hz
      rw [List.cons_append, replace_ne _ (Ne.symm hz.1), ih hz.2, List.cons_append]
  rw [key _ (by simp [hX])]
  rfl

theorem R3_dash (k : Nat) (Y : Txt) {rep : Txt} :
    replace "   ~ ".toList rep (List.replicate k ' ' ++ '-' :: Y) = List.replicate k ' ' ++ '-' :: replace "   ~ ".toList rep Y := by
  rw [replace_append '-' (by decide), replace_absent (d := '~') (by decide) (by simp)]
  congr 1
  exact replace_ne (p := ' ') Y (by decide)

theorem replace_head {ps rs : Txt} {X : Txt} {c : Char} (h : (replace (c :: ps) (c :: rs) X).head? = some ' ') (hc : c ≠ ' ') : X.head? = some ' ' := by
  cases X with
  | nil => rw [replace_nil] at h; exact h
  | cons x xs =>
    by_cases hx : x = c
    · subst hx
      rw [replace] at h
      split at h
      · simp at h; exact absurd h hc
      · simpa using h
    · rw [replace_ne _ hx] at h
      simpa using h

/-- `~` and `-` as list markers make no difference to `tilde`. -/
theorem tilde_entry (n : Nat) (hn : 1 ≤ n) (a X : Txt) (hX : n ≤ 2 ∨ X.head? ≠ some ' ') :
    tilde (a ++ ('\n' :: List.replicate n ' ' ++ ['~', ' '] ++ X)) = tilde (a ++ ('\n' :: List.replicate n ' ' ++ ['-', ' '] ++ X)) := by
  have cut1 : ∀ Z : Txt, replace "\n ~ ".toList "\n - ".toList (a ++ '\n' :: Z)
      = replace "\n ~ ".toList "\n - ".toList a ++ replace "\n ~ ".toList "\n - ".toList ('\n' :: Z) :=
    fun Z => replace_append '\n' (by decide) a Z
  have cut2 : ∀ b Z : Txt, replace "\n  ~ ".toList "\n  - ".toList (b ++ '\n' :: Z)
      = replace "\n  ~ ".toList "\n  - ".toList b ++ replace "\n  ~ ".toList "\n  - ".toList ('\n' :: Z) :=
    fun b Z => replace_append '\n' (by decide) b Z
  have dash1 := replace_newline (ps := " ~ ".toList) (rep := "\n - ".toList) n ['-', ' '] (by decide) X
  have dash2 := fun Y => replace_newline (ps := "  ~ ".toList) (rep := "\n  - ".toList) n ['-', ' '] (by decide) Y
  have tld1 := replace_newline (ps := " ~ ".toList) (rep := "\n - ".toList) n ['~', ' '] (by decide) X
  have tld2 := fun Y => replace_newline (ps := "  ~ ".toList) (rep := "\n  - ".toList) n ['~', ' '] (by decide) Y
  rw [show '\n' :: " ~ ".toList = "\n ~ ".toList from rfl] at dash1 tld1
  rw [show '\n' :: "  ~ ".toList = "\n  ~ ".toList from rfl] at dash2 tld2
  unfold tilde
  rcases Nat.lt_or_ge n 3 with h3 | h3
  · rcases Nat.lt_or_ge n 2 with h2 | h2
    · -- one blank
      obtain rfl : n = 1 := by omega
      rw [show a ++ ('\n' :: List.replicate 1 ' ' ++ ['~', ' '] ++ X) = a ++ '\n' :: (List.replicate 1 ' ' ++ ['~', ' '] ++ X) from rfl,
        show a ++ ('\n' :: List.replicate 1 ' ' ++ ['-', ' '] ++ X) = a ++ '\n' :: (List.replicate 1 ' ' ++ ['-', ' '] ++ X) from rfl, cut1, cut1]
      have e1 : replace "\n ~ ".toList "\n - ".toList ('\n' :: (List.replicate 1 ' ' ++ ['~', ' '] ++ X))
          = "\n - ".toList ++ replace "\n ~ ".toList "\n - ".toList X := replace_hit (pat := "\n ~ ".toList) (by decide) X
      have e2 : replace "\n ~ ".toList "\n - ".toList ('\n' :: (List.replicate 1 ' ' ++ ['-', ' '] ++ X))
          = "\n - ".toList ++ replace "\n ~ ".toList "\n - ".toList X := dash1 (by simp [List.isPrefixOf])
      rw [e1, e2]
    · -- two blanks
      obtain rfl : n = 2 := by omega
      rw [show a ++ ('\n' :: List.replicate 2 ' ' ++ ['~', ' '] ++ X) = a ++ '\n' :: (List.replicate 2 ' ' ++ ['~', ' '] ++ X) from rfl,
        show a ++ ('\n' :: List.replicate 2 ' ' ++ ['-', ' '] ++ X) = a ++ '\n' :: (List.replicate 2 ' ' ++ ['-', ' '] ++ X) from rfl, cut1, cut1]
      have e1 : replace "\n ~ ".toList "\n - ".toList ('\n' :: (List.replicate 2 ' ' ++ ['~', ' '] ++ X))
          = '\n' :: (List.replicate 2 ' ' ++ ['~', ' '] ++ replace "\n ~ ".toList "\n - ".toList X) := tld1 (by simp [List.isPrefixOf])
      have e2 : replace "\n ~ ".toList "\n - ".toList ('\n' :: (List.replicate 2 ' ' ++ ['-', ' '] ++ X))
          = '\n' :: (List.replicate 2 ' ' ++ ['-', ' '] ++ replace "\n ~ ".toList "\n - ".toList X) := dash1 (by simp [List.isPrefixOf])
      rw [e1, e2, cut2, cut2]
      generalize replace "\n ~ ".toList "\n - ".toList X = X1
      have f1 : replace "\n  ~ ".toList "\n  - ".toList ('\n' :: (List.replicate 2 ' ' ++ ['~', ' '] ++ X1))
          = "\n  - ".toList ++ replace "\n  ~ ".toList "\n  - ".toList X1 := replace_hit (pat := "\n  ~ ".toList) (by decide) X1
      have f2 : replace "\n  ~ ".toList "\n  - ".toList ('\n' :: (List.replicate 2 ' ' ++ ['-', ' '] ++ X1))
          = "\n  - ".toList ++ replace "\n  ~ ".toList "\n  - ".toList X1 := dash2 X1 (by simp [List.isPrefixOf])
      rw [f1, f2]
  · -- three blanks or more
    obtain ⟨m, rfl⟩ : ∃ m, n = m + 3 := ⟨n - 3, by omega⟩
    rw [show ∀ c, a ++ ('\n' :: List.replicate (m + 3) ' ' ++ [c, ' '] ++ X) = a ++ '\n' :: (List.replicate (m + 3) ' ' ++ [c, ' '] ++ X) from fun _ => rfl,
      show ∀ c, a ++ ('\n' :: List.replicate (m + 3) ' ' ++ [c, ' '] ++ X) = a ++ '\n' :: (List.replicate (m + 3) ' ' ++ [c, ' '] ++ X) from fun _ => rfl,
      cut1, cut1]
    have e1 : replace "\n ~ ".toList "\n - ".toList ('\n' :: (List.replicate (m + 3) ' ' ++ ['~', ' '] ++ X))
        = '\n' :: (List.replicate (m + 3) ' ' ++ ['~', ' '] ++ replace "\n ~ ".toList "\n - ".toList X) :=
      tld1 (by simp [List.isPrefixOf, List.replicate_succ])
    have e2 : replace "\n ~ ".toList "\n - ".toList ('\n' :: (List.replicate (m + 3) ' ' ++ ['-', ' '] ++ X))
        = '\n' :: (List.replicate (m + 3) ' ' ++ ['-', ' '] ++ replace "\n ~ ".toList "\n - ".toList X) :=
      dash1 (by simp [List.isPrefixOf, List.replicate_succ])
    rw [e1, e2, cut2, cut2]
    have hX1 : (replace "\n ~ ".toList "\n - ".toList X).head? ≠ some ' ' := fun h =>
      (hX.resolve_left (by omega)) (replace_head (c := '\n') (ps := " ~ ".toList) (rs := " - ".toList) h (by decide))
    generalize replace "\n ~ ".toList "\n - ".toList X = X1 at hX1 ⊢
    have f1 : replace "\n  ~ ".toList "\n  - ".toList ('\n' :: (List.replicate (m + 3) ' ' ++ ['~', ' '] ++ X1))
        = '\n' :: (List.replicate (m + 3) ' ' ++ ['~', ' '] ++ replace "\n  ~ ".toList "\n  - ".toList X1) :=
      tld2 X1 (by simp [List.isPrefixOf, List.replicate_succ])
    have f2 : replace "\n  ~ ".toList "\n  - ".toList ('\n' :: (List.replicate (m + 3) ' ' ++ ['-', ' '] ++ X1))
        = '\n' :: (List.replicate (m + 3) ' ' ++ ['-', ' '] ++ replace "\n  ~ ".toList "\n  - ".toList X1) :=
      dash2 X1 (by simp [List.isPrefixOf, List.replicate_succ])
    rw [f1, f2]
    have hX2 : (replace "\n  ~ ".toList "\n  - ".toList X1).head? ≠ some ' ' := fun h =>
      hX1 (replace_head (c := '\n') (ps := "  ~ ".toList) (rs := "  - ".toList) h (by decide))
    generalize replace "\n  ~ ".toList "\n  - ".toList X1 = X2 at hX2 ⊢
    generalize replace "\n  ~ ".toList "\n  - ".toList (replace "\n ~ ".toList "\n - ".toList a) = a2
    rw [replace_append '\n' (by decide), replace_append '\n' (by decide)]
    congr 1
    have g1 : replace "   ~ ".toList "   - ".toList ('\n' :: (List.replicate (m + 3) ' ' ++ ['~', ' '] ++ X2))
        = '\n' :: (List.replicate m ' ' ++ "   - ".toList ++ replace "   ~ ".toList "   - ".toList X2) := by
      rw [show List.replicate (m + 3) ' ' ++ ['~', ' '] ++ X2 = List.replicate (m + 3) ' ' ++ '~' :: ' ' :: X2 by simp, ← replace_blanks]
      exact replace_ne (p := ' ') _ (by decide)
    have g2 : replace "   ~ ".toList "   - ".toList ('\n' :: (List.replicate (m + 3) ' ' ++ ['-', ' '] ++ X2))
        = '\n' :: (List.replicate (m + 3) ' ' ++ '-' :: replace "   ~ ".toList "   - ".toList (' ' :: X2)) := by
      rw [show List.replicate (m + 3) ' ' ++ ['-', ' '] ++ X2 = List.replicate (m + 3) ' ' ++ '-' :: ' ' :: X2 by simp, ← R3_dash]
      exact replace_ne (p := ' ') _ (by decide)
    have g3 : replace "   ~ ".toList "   - ".toList (' ' :: X2) = ' ' :: replace "   ~ ".toList "   - ".toList X2 :=
      replace_miss (p := ' ') (ps := "  ~ ".toList) (n := 1) (d := ' ') X2 ' ' (by
        rw [List.getElem?_cons_succ, ← List.head?_eq_getElem?]; exact hX2) rfl
    rw [g1, g2, g3, show m + 3 = m + 3 from rfl, List.replicate_add m 3]
    simp

/-- C135: `~` and `-` are the same as markers of list entries on lines of their own that are indented by at least one blank. (Not if the
line before ends in the continuation sign; with three blanks and more, the marker must be followed by exactly one blank.) -/
theorem C135_markers_partial (n : Nat) (hn : 1 ≤ n) (a b : Txt) (ha : lastChar a ≠ some '@') (ha2 : ¬ ['@', ' '] <:+ a.filter (· ≠ ';'))
    (hb : n ≤ 2 ∨ ∀ c, b.head? = some c → c ∉ [' ', ';', '@']) : Spec.MarkersAgree n a b := by
  have ha' : ¬ ['@'] <:+ chars a := fun h => ha (chars_last a '@' (by decide) (suffix_last h))
  have hj : ∀ c : Char, c ∈ ['~', '-'] → joinLines (chars (entry c n a b))
      = joinLines (chars a) ++ ('\n' :: List.replicate n ' ' ++ [c, ' '] ++ joinLines (chars b)) := by
    intro c hc
    have hc1 : c ≠ '^' ∧ c ≠ ';' ∧ c ≠ '@' := by
      refine ⟨?_, ?_, ?_⟩ <;> (rintro rfl; exact absurd hc (by decide))
    have hs : chars (entry c n a b) = chars a ++ (('\n' :: List.replicate n ' ' ++ [c, ' ']) ++ chars b) := by
      rw [show entry c n a b = a ++ (('\n' :: List.replicate n ' ' ++ [c, ' ']) ++ b) by simp [entry], chars_append, chars_append,
        chars_plain (s := '\n' :: List.replicate n ' ' ++ [c, ' '])]
      · simp [Ne.symm hc1.1]
      · simp [Ne.symm hc1.2.1]
    have hno : '@' ∉ '\n' :: List.replicate n ' ' ++ [c, ' '] := by simp [Ne.symm hc1.2.2]
    rw [hs, joinLines_append _ _ (fun h => absurd h ha') (fun h => absurd (chars_last2 a _ _ (by decide) (by decide) h) ha2),
      joinLines_append _ _ (fun h => absurd (h.subset (by simp)) hno) (fun h => absurd (mem_of_suffix2 h) hno), joinLines_plain hno]
  have hX : n ≤ 2 ∨ (joinLines (chars b)).head? ≠ some ' ' := by
    refine hb.imp id fun hb h => ?_
    cases b with
    | nil => simp [chars, caret_eq, semi_eq, joinLines] at h
    | cons x xs =>
      have hx := hb x rfl
      simp only [List.mem_cons, not_or, List.not_mem_nil, not_false_eq_true, and_true] at hx
      obtain ⟨y, ys, hy, hy1, hy2⟩ : ∃ y ys, chars (x :: xs) = y :: ys ∧ y ≠ ' ' ∧ y ≠ '@' := by
        by_cases hx2 : x = '^'
        · subst hx2
          exact ⟨'*', '*' :: chars xs, by rw [show '^' :: xs = ['^'] ++ xs from rfl, chars_append]; simp [chars, caret_eq, semi_eq], by decide, by decide⟩
        · exact ⟨x, chars xs, by rw [show x :: xs = [x] ++ xs from rfl, chars_append, chars_plain (by simp [Ne.symm hx2]) (by simp [Ne.symm hx.2.1])]; rfl, hx.1, hx.2.2⟩
      rw [hy, joinLines_cons (fun h => absurd h hy2) (fun h => absurd h hy2)] at h
      simp only [List.head?_cons, Option.some.injEq] at h
      exact hy1 h
  unfold Spec.MarkersAgree prep
  have h1 := hj '~' (by decide)
  have h2 := hj '-' (by decide)
  unfold chars at h1 h2
  rw [h1, h2]
  exact tilde_entry n hn _ _ hX

/-- C135: a marker without indentation stays as it is, and so does a second one on the same line. -/
theorem C135_markers_refuted : (¬ ∀ n a b, Spec.MarkersAgree n a b) ∧ (¬ ∀ n a b, 1 ≤ n → Spec.MarkersAgree n a b) := by
  constructor
  · intro h
    exact absurd (h 0 "model:".toList "x = y".toList) (by unfold Spec.MarkersAgree; decide +kernel)
  · intro h
    exact absurd (h 3 "model:".toList "  ~ y".toList (by decide)) (by unfold Spec.MarkersAgree; decide +kernel)

example : prep "model:\n    ~ x = y\n    ~ y = z".toList = "model:\n    - x = y\n    - y = z".toList := by decide +kernel
example : Spec.MarkersAgree 4 "model:".toList "x = y".toList :=
  C135_markers_partial 4 (by decide) _ _ (by decide +kernel) (by decide +kernel) (.inr (by decide +kernel))

/-! ## C136: comments -/

/-- The contract of `yaml.safe_load` on a sample: a `#` within a word starts no comment. -/
example : yamlView "# a\nb#c d #e\nf".toList = "\nb#c d \nf".toList := by decide +kernel

theorem dropComments_newline (cm bl : Bool) (X Z : Txt) :
    dropComments cm bl (X ++ '\n' :: Z) = dropComments cm bl X ++ '\n' :: dropComments false true Z := by
  induction X generalizing cm bl with
  | nil => simp [dropComments]
  | cons x xs ih =>
    rw [List.cons_append]
    conv_lhs => rw [dropComments]
    conv_rhs => rw [dropComments]
    split_ifs <;> simp [ih]

theorem dropComments_in (bl : Bool) (c : Txt) (hc : '\n' ∉ c) : dropComments true bl c = [] := by
  induction c with
  | nil => rfl
  | cons x xs ih =>
    simp only [List.mem_cons, not_or] at hc
    rw [dropComments, if_neg (Ne.symm hc.1), if_pos rfl, ih hc.2]

theorem dropComments_hash (cm bl : Bool) (X c : Txt) (hX : X.getLast? = some ' ') (hc : '\n' ∉ c) :
    dropComments cm bl (X ++ '#' :: c) = dropComments cm bl X := by
  induction X generalizing cm bl with
  | nil => exact absurd hX (by simp)
  | cons x xs ih =>
    rw [List.cons_append]
    conv_lhs => rw [dropComments]
    conv_rhs => rw [dropComments]
    cases xs with
    | nil =>
      have hx : x = ' ' := by simpa using hX
      subst hx
      have h2 : '\n' ∉ '#' :: c := by simp [hc]
      cases cm with
      | true => simp [dropComments_in _ _ h2, dropComments]
      | false => simp [dropComments, dropComments_in _ _ hc]
    | cons y ys =>
      rw [List.getLast?_cons_cons] at hX
      split_ifs <;> rw [ih _ _ hX]

/-- `tilde` cut at the `#` of a comment and at the end of the line. -/
theorem tilde_comment (X c Z : Txt) (hX : X.getLast? = some ' ') (hc : '\n' ∉ c) :
    ∃ X' c' Z', tilde (X ++ '#' :: (c ++ '\n' :: Z)) = X' ++ '#' :: (c' ++ '\n' :: Z') ∧ tilde (X ++ '\n' :: Z) = X' ++ '\n' :: Z' ∧
      X'.getLast? = some ' ' ∧ '\n' ∉ c' ∧ X' = tilde X ∧ tilde ('\n' :: Z) = '\n' :: Z' := by
  have step : ∀ (p : Char) (ps rs : Txt), '#' ∉ p :: ps → '\n' ∉ ps → (∀ c : Txt, '\n' ∉ c → '\n' ∉ replace (p :: ps) (p :: rs) c) →
      (p :: rs).getLast? = some ' ' → ∀ X c Z : Txt, X.getLast? = some ' ' → '\n' ∉ c →
      ∃ c' Z', replace (p :: ps) (p :: rs) (X ++ '#' :: (c ++ '\n' :: Z)) = replace (p :: ps) (p :: rs) X ++ '#' :: (c' ++ '\n' :: Z') ∧
        replace (p :: ps) (p :: rs) (X ++ '\n' :: Z) = replace (p :: ps) (p :: rs) X ++ '\n' :: Z' ∧
        (replace (p :: ps) (p :: rs) X).getLast? = some ' ' ∧ '\n' ∉ c' ∧ replace (p :: ps) (p :: rs) ('\n' :: Z) = '\n' :: Z' := by
    intro p ps rs hh hn hno hl X c Z hX hc
    have hZ : ∃ Z', replace (p :: ps) (p :: rs) ('\n' :: Z) = '\n' :: Z' := by
      by_cases hp : '\n' = p
      · subst hp
        rw [replace]
        split
        · exact ⟨_, rfl⟩
        · exact ⟨_, rfl⟩
      · exact ⟨_, replace_ne _ hp⟩
    obtain ⟨Z', hZ'⟩ := hZ
    refine ⟨replace (p :: ps) (p :: rs) c, Z', ?_, ?_, replace_last hl hX, hno c hc, hZ'⟩
    · rw [replace_append (pat := p :: ps) '#' (fun h => hh (List.mem_cons_of_mem _ h)), replace_ne _ (fun h => hh (List.mem_cons.2 (Or.inl h))),
        replace_append (pat := p :: ps) '\n' hn, hZ']
    · rw [replace_append (pat := p :: ps) '\n' hn, hZ']
  have no1 : ∀ (ps rs c : Txt), '\n' ∉ c → '\n' ∉ replace ('\n' :: ps) ('\n' :: rs) c := fun ps rs c hc => by
    rwa [replace_absent (d := '\n') (by simp) hc]
  obtain ⟨c1, Z1, h1, h1', hX1, hc1, hz1⟩ := step '\n' " ~ ".toList " - ".toList (by decide) (by decide) (no1 _ _) (by decide) X c Z hX hc
  obtain ⟨c2, Z2, h2, h2', hX2, hc2, hz2⟩ := step '\n' "  ~ ".toList "  - ".toList (by decide) (by decide) (no1 _ _) (by decide) _ c1 Z1 hX1 hc1
  obtain ⟨c3, Z3, h3, h3', hX3, hc3, hz3⟩ := step ' ' "  ~ ".toList "  - ".toList (by decide) (by decide)
    (fun c hc h => (mem_replace h).elim hc (by decide)) (by decide) _ c2 Z2 hX2 hc2
  refine ⟨_, c3, Z3, ?_, ?_, hX3, hc3, rfl, ?_⟩
  · unfold tilde
    exact (congrArg _ ((congrArg _ h1).trans h2)).trans h3
  · unfold tilde
    exact (congrArg _ ((congrArg _ h1').trans h2')).trans h3'
  · unfold tilde
    exact (congrArg _ ((congrArg _ hz1).trans hz2)).trans hz3

/-- The text `a`, a comment with the text `c` and the further lines `b`. -/
def commented (a c b : Txt) : Txt := a ++ ' ' :: '#' :: (c ++ '\n' :: b)

theorem chars_no {d : Char} {c : Txt} (hd : d ≠ '*') (h : d ∉ c) : d ∉ chars c := fun hc => ((mem_chars hc).1).elim h hd

theorem yamlView_commented (a c b : Txt) (hn : '\n' ∉ c) (hat : '@' ∉ c) :
    ∃ Z', tilde ('\n' :: joinLines (chars b)) = '\n' :: Z' ∧
      yamlView (prep (commented a c b)) = dropComments false true (tilde (joinLines (chars a) ++ [' '])) ++ '\n' :: dropComments false true Z' := by
  have hs : chars (commented a c b) = (chars a ++ [' ']) ++ ('#' :: chars c ++ ('\n' :: chars b)) := by
    rw [show commented a c b = a ++ (" #".toList ++ (c ++ ("\n".toList ++ b))) by simp [commented], chars_append, chars_append, chars_append, chars_append,
      chars_plain (s := " #".toList) (by decide) (by decide), chars_plain (s := "\n".toList) (by decide) (by decide)]
    simp
  have hat' : '@' ∉ '#' :: chars c := by simp [chars_no (by decide) hat]
  have hj : joinLines (chars (commented a c b)) = (joinLines (chars a) ++ [' ']) ++ '#' :: (chars c ++ '\n' :: joinLines (chars b)) := by
    rw [hs, joinLines_append _ _ (fun _ r => by simp) (fun _ r => by simp),
      joinLines_append _ _ (fun h => absurd (h.subset (by simp)) hat') (fun h => absurd (mem_of_suffix2 h) hat'),
      joinLines_plain hat', joinLines_append (chars a) [' '] (fun _ r => by simp) (fun _ r => by simp),
      joinLines_cons (c := '\n') (fun h => absurd h (by decide)) (fun h => absurd h (by decide))]
    rfl
  obtain ⟨X', c', Z', h1, -, hX, hc, hX', hZ⟩ := tilde_comment (joinLines (chars a) ++ [' ']) (chars c) (joinLines (chars b)) (by simp)
    (chars_no (by decide) hn)
  refine ⟨Z', hZ, ?_⟩
  unfold prep yamlView
  unfold chars at hj h1
  rw [hj, h1, ← hX', show X' ++ '#' :: (c' ++ '\n' :: Z') = (X' ++ '#' :: c') ++ '\n' :: Z' by simp, dropComments_newline,
    dropComments_hash _ _ _ _ hX hc]

/-- C136: the text of a comment has no influence on what YAML reads, if there is no continuation sign in it. -/
theorem C136_comment_text_partial (a c c' b : Txt) (hc : '\n' ∉ c) (hc' : '\n' ∉ c') (hat : '@' ∉ c) (hat' : '@' ∉ c') :
    yamlView (prep (commented a c b)) = yamlView (prep (commented a c' b)) := by
  obtain ⟨Z, h1, h2⟩ := yamlView_commented a c b hc hat
  obtain ⟨Z', h1', h2'⟩ := yamlView_commented a c' b hc' hat'
  rw [h2, h2']
  rw [h1] at h1'
  rw [(List.cons.inj h1').2]

/-- C136: a comment can be left out, if there is no continuation sign in it or right before it. -/
theorem C136_comment_removed_partial (a c b : Txt) (hc : '\n' ∉ c) (hat : '@' ∉ c) (ha : lastChar a ≠ some '@') :
    yamlView (prep (commented a c b)) = yamlView (prep (a ++ ' ' :: '\n' :: b)) := by
  obtain ⟨Z, h1, h2⟩ := yamlView_commented a c b hc hat
  rw [h2]
  have ha' : ¬ ['@'] <:+ chars a := fun h => ha (chars_last a '@' (by decide) (suffix_last h))
  have hs : chars (a ++ ' ' :: '\n' :: b) = chars a ++ ([' '] ++ ('\n' :: chars b)) := by
    rw [show a ++ ' ' :: '\n' :: b = a ++ (" \n".toList ++ b) by simp, chars_append, chars_append, chars_plain (s := " \n".toList) (by decide) (by decide)]
    simp
  have hj : joinLines (chars (a ++ ' ' :: '\n' :: b)) = (joinLines (chars a) ++ [' ']) ++ '\n' :: joinLines (chars b) := by
    rw [hs, joinLines_append _ _ (fun h => absurd h ha') (fun _ r => by simp),
      joinLines_append [' '] _ (fun h => absurd (h.subset (List.mem_singleton.2 rfl)) (by decide)) (fun h => absurd (mem_of_suffix2 h) (by decide)),
      joinLines_cons (c := '\n') (fun h => absurd h (by decide)) (fun h => absurd h (by decide)), joinLines_plain (s := [' ']) (by decide)]
    simp
  obtain ⟨X', c', Z', -, h3, -, -, hX', hZ⟩ := tilde_comment (joinLines (chars a) ++ [' ']) [] (joinLines (chars b)) (by simp) (by simp)
  rw [h1] at hZ
  obtain rfl := (List.cons.inj hZ).2
  unfold prep yamlView
  unfold chars at hj h3
  rw [hj, h3, dropComments_newline, ← hX']

/-- C136: a comment that ends in `@` swallows the next line, and a comment after the continuation sign undoes the continuation. -/
theorem C136_comments_refuted :
    (¬ ∀ a c c' b : Txt, '\n' ∉ c → '\n' ∉ c' → yamlView (prep (commented a c b)) = yamlView (prep (commented a c' b))) ∧
    (¬ ∀ a c b : Txt, '\n' ∉ c → '@' ∉ c → yamlView (prep (commented a c b)) = yamlView (prep (a ++ ' ' :: '\n' :: b))) := by
  constructor
  · intro h
    exact absurd (h " - x = y".toList " see me@".toList " see me".toList " - y = z".toList (by decide +kernel) (by decide +kernel)) (by decide +kernel)
  · intro h
    exact absurd (h " - x = y @".toList " first part".toList "   + z".toList (by decide +kernel) (by decide +kernel)) (by decide +kernel)

/-- What is lost: the next equation is gone. -/
theorem C136_equation_lost :
    yamlView (prep (commented " - x = y".toList " see me@".toList " - y = z\n".toList)) = " - x = y \n".toList := by decide +kernel

example : yamlView (prep (commented " - x = y^2".toList " squared; see (2)".toList " ~ y = z\n".toList)) = " - x = y**2 \n - y = z\n".toList := by
  decide +kernel

end Pydsge.Text
