import Verif.Model.Symbols
import Std.Data.String.ToInt
import Std.Data.String.ToNat
import Mathlib.Tactic.Ring

/-!
# C63: time shifts of symbols
-/

set_option autoImplicit false

namespace Pydsge

theorem int_toString_inj (a b : Int) (h : toString a = toString b) : a = b := by
  have key : ∀ i : Int, (toString i).toInt? = some i := by
    intro i
    rw [String.toInt?_eq_some_iff]
    cases i with
    | ofNat n => exact Or.inl ⟨n, by change (Nat.repr n).toNat? = _; exact Nat.toNat?_repr n, rfl⟩
    | negSucc n => exact Or.inr ⟨Nat.repr (n + 1), rfl, n + 1, Nat.toNat?_repr _, rfl⟩
  have := key a
  rw [h, key b] at this
  exact (Option.some.inj this).symm

theorem int_toInt_toString (i : Int) : (toString i).toInt? = some i := by
  rw [String.toInt?_eq_some_iff]
  cases i with
  | ofNat n => exact Or.inl ⟨n, by change (Nat.repr n).toNat? = _; exact Nat.toNat?_repr n, rfl⟩
  | negSucc n => exact Or.inr ⟨Nat.repr (n + 1), rfl, n + 1, Nat.toNat?_repr _, rfl⟩

theorem split_paren (n r : List Char) (h : '(' ∉ n) :
    (n ++ '(' :: r).takeWhile (· != '(') = n ∧ (n ++ '(' :: r).dropWhile (· != '(') = '(' :: r := by
  have hn : ∀ c ∈ n, (c != '(') = true := by
    intro c hc
    simp only [bne_iff_ne, ne_eq]
    rintro rfl; exact h hc
  rw [List.takeWhile_append_of_pos hn, List.dropWhile_append_of_pos hn]
  simp

theorem split_noparen (n : List Char) (h : '(' ∉ n) :
    n.takeWhile (· != '(') = n ∧ n.dropWhile (· != '(') = [] := by
  have hn : ∀ c ∈ n, (c != '(') = true := by
    intro c hc
    simp only [bne_iff_ne, ne_eq]
    rintro rfl; exact h hc
  have h1 := List.takeWhile_append_of_pos (l₂ := []) hn
  have h2 := List.dropWhile_append_of_pos (l₂ := []) hn
  simp only [List.append_nil, List.takeWhile_nil, List.dropWhile_nil] at h1 h2
  exact ⟨h1, h2⟩

/-- **C63**, shifts: shifting by `a` and then by `b` is shifting by `a + b`; the shifted symbol keeps class and name and
its date moves by the shift. -/
theorem C63_shifts_compose (s : TSym) (a b : Int) :
    (s.call a).call b = s.call (a + b) ∧ (s.call a).kind = s.kind ∧ (s.call a).name = s.name ∧
      (s.call a).date = s.date + a := by
  refine ⟨?_, rfl, rfl, rfl⟩
  simp only [TSym.call, TSym.mk', TSym.mk.injEq, and_true, true_and]
  ring

/-- **C63**, equality: two symbols are equal iff class, name, date and expectation date agree. -/
theorem C63_equality (s t : TSym) :
    s.pyEq t = true ↔ s.kind = t.kind ∧ s.name = t.name ∧ s.date = t.date ∧ s.expDate = t.expDate := by
  simp only [TSym.pyEq, TSym.content, Bool.and_eq_true, beq_iff_eq, Prod.mk.injEq]
  exact and_congr_right fun _ => and_congr_right fun _ =>
    and_congr ⟨int_toString_inj _ _, fun h => by rw [h]⟩ ⟨int_toString_inj _ _, fun h => by rw [h]⟩

/-- Symbols of different classes are never equal, even with the same name. -/
theorem C63_classes (s t : TSym) (hk : s.kind ≠ t.kind) : s.pyEq t = false := by
  simp [TSym.pyEq, hk]

/-- **C63**, printing: the printed form of a declared symbol shifted by `d` reads back as that symbol. -/
theorem C63_printed_form (context : String → Option TSym) (k : Kind) (n : String) (d : Int)
    (hn : '(' ∉ n.toList) (hc : context n = some (TSym.mk' k n)) :
    evalCall context ((TSym.mk' k n).call d).str = some ((TSym.mk' k n).call d) := by
  have hstr : ((TSym.mk' k n).call d).str = if d = 0 then n else n ++ "(" ++ toString d ++ ")" := by
    cases k <;> simp [TSym.str, TSym.str0, TSym.call, TSym.mk']
  rw [hstr]
  by_cases hd : d = 0
  · subst hd
    simp only [if_true, evalCall, readCall, (split_noparen _ hn).1, (split_noparen _ hn).2, String.ofList_toList, hc]
    simp [TSym.call, TSym.mk']
  · rw [if_neg hd]
    have hl : (n ++ "(" ++ toString d ++ ")").toList = n.toList ++ '(' :: ((toString d).toList ++ [')']) := by
      simp [String.toList_append]
    simp only [evalCall, readCall, hl, (split_paren _ _ hn).1, (split_paren _ _ hn).2, List.reverse_append, List.reverse_cons, List.reverse_nil,
      List.nil_append, List.singleton_append, List.reverse_reverse, String.ofList_toList, int_toInt_toString,
      Option.map_some, hc]

/-- A concrete case: `y(-1)(-2)` prints as `y(-3)` and reads back. -/
example : (((TSym.mk' .variable "y").call (-1)).call (-2)).str = "y(-3)" := by decide +kernel

example : evalCall (fun n => if n = "y" then some (TSym.mk' .variable "y") else none) "y(-3)"
    = some (TSym.mk' .variable "y" (-3)) :=
  C63_printed_form _ .variable "y" (-3) (by decide) rfl

/-- Without the restriction to symbols without expectation date the shift does not keep the symbol. -/
theorem C63_expectation_date_is_lost : ∃ s : TSym, s.call 0 ≠ s :=
  ⟨{ kind := .variable, name := "y", expDate := 1 }, by decide⟩

end Pydsge
