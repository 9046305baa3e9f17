import Verif.Model.Dumper
import Mathlib.Data.List.Basic

/-!
# C156: printing an object
-/

set_option autoImplicit false
set_option linter.unusedSectionVars false
set_option linter.unusedSimpArgs false

namespace Pydsge

open Dumper

namespace Spec

/-- `w` is an entry of `v`, printed with the label `l`. -/
inductive Entry : Val → String → Val → Prop
  | none (es : List (Key × Val)) (w : Val) (h : (Key.none, w) ∈ es) : Entry (.dict es) "" w
  | key (es : List (Key × Val)) (k : String) (w : Val) (h : (Key.text k, w) ∈ es) : Entry (.dict es) (k ++ " : ") w
  | list (vs : List Val) (w : Val) (h : w ∈ vs) : Entry (.list vs) "" w
  | tuple (vs : List Val) (w : Val) (h : w ∈ vs) : Entry (.tuple vs) "" w
  | set (vs : List Val) (w : Val) (h : w ∈ vs) : Entry (.set vs) "" w

/-- `w` is part of `v`, `d` levels down; `l` is its label (that of `v` itself is `l₀`). -/
inductive Part (l₀ : String) (v : Val) : Nat → String → Val → Prop
  | self : Part l₀ v 0 l₀ v
  | entry {d : Nat} {l : String} {w : Val} (h : Part l₀ v d l w) {l' : String} {x : Val} (e : Entry w l' x) : Part l₀ v (d + 1) l' x

/-- All keys of all dictionaries in `v` are text or `None`. -/
def TextKeys (v : Val) : Prop := ∀ d l es, Part "" v d l (.dict es) → ∀ k x, (k, x) ∈ es → k ≠ .other

/-- The text of the line of a value: containers start with their bracket. -/
def lineOf : Val → String
  | .dict _ => "{"
  | .list _ => "["
  | .tuple _ => "("
  | .set _ => "{"
  | .eqn l r => l ++ " = " ++ r
  | .str s => "'" ++ s ++ "'"
  | .other s => s

end Spec

namespace Dumper

theorem seq_none {a b : Out} : (Out.seq a b).2 = none ↔ a.2 = none ∧ b.2 = none := by
  unfold Out.seq
  cases a.2 <;> simp

theorem seq_lines {a b : Out} (h : (Out.seq a b).2 = none) : (Out.seq a b).1 = a.1 ++ b.1 := by
  have := (seq_none.1 h).1
  unfold Out.seq
  rw [this]

theorem seq_err {a b : Out} {e : PyErr} (h : (Out.seq a b).2 = some e) : a.2 = some e ∨ b.2 = some e := by
  unfold Out.seq at h
  cases ha : a.2 with
  | none => rw [ha] at h; exact Or.inr h
  | some e' => rw [ha] at h; exact Or.inl h

theorem dumpList_none (i c : Nat) (vs : List Val) : (dumpList i c vs).2 = none ↔ ∀ v ∈ vs, (dump i c "" v).2 = none := by
  induction vs with
  | nil => simp [dumpList]
  | cons v vs ih => simp [dumpList, seq_none, ih]

theorem dumpEntries_none (i c : Nat) (es : List (Key × Val)) : (dumpEntries i c es).2 = none ↔
    ∀ k x, (k, x) ∈ es → ∃ l, k.label = some l ∧ (dump i c l x).2 = none := by
  induction es with
  | nil => simp [dumpEntries]
  | cons e es ih =>
    obtain ⟨k, v⟩ := e
    rw [dumpEntries]
    cases hk : k.label with
    | none =>
      simp only [reduceCtorEq, false_iff, not_forall]
      refine ⟨k, v, List.mem_cons_self .., ?_⟩
      rintro ⟨l, hl, _⟩
      rw [hk] at hl
      cases hl
    | some l =>
      simp only
      rw [seq_none, ih]
      constructor
      · rintro ⟨h1, h2⟩ k' x hm
        rcases List.mem_cons.1 hm with h | h
        · cases h; exact ⟨l, hk, h1⟩
        · exact h2 k' x h
      · intro h
        refine ⟨?_, fun k' x hm => h k' x (List.mem_cons_of_mem _ hm)⟩
        obtain ⟨l', h1, h2⟩ := h k v (List.mem_cons_self ..)
        rw [hk] at h1
        cases h1
        exact h2

/-- What a value prints does not fail: entry by entry. -/
theorem dump_none (i c : Nat) (l : String) (v : Val) : (dump i c l v).2 = none ↔
    (∀ es, v = .dict es → ∀ k x, (k, x) ∈ es → k ≠ .other) ∧ ∀ l' x, Spec.Entry v l' x → (dump i (c + i) l' x).2 = none := by
  cases v with
  | dict es =>
    rw [dump, seq_none, seq_none, dumpEntries_none]
    constructor
    · rintro ⟨_, h, _⟩
      refine ⟨?_, ?_⟩
      · intro es' he k x hm
        cases he
        obtain ⟨l', h1, _⟩ := h k x hm
        rintro rfl
        cases h1
      · intro l' x hx
        cases hx with
        | none _ _ hm => obtain ⟨_, h1, h2⟩ := h _ _ hm; cases h1; exact h2
        | key _ k _ hm =>
          obtain ⟨_, h1, h2⟩ := h _ _ hm
          cases h1
          have : k ++ " : " = label (some k) ":" := by simp [label, String.append_assoc]
          rw [this]; exact h2
    · rintro ⟨h1, h2⟩
      refine ⟨rfl, fun k x hm => ?_, rfl⟩
      cases k with
      | none => exact ⟨_, rfl, h2 _ _ (.none es x hm)⟩
      | text s =>
        have : s ++ " : " = label (some s) ":" := by simp [label, String.append_assoc]
        exact ⟨_, rfl, this ▸ h2 _ _ (.key es s x hm)⟩
      | other => exact absurd rfl (h1 es rfl _ _ hm)
  | list vs =>
    rw [dump, seq_none, seq_none, dumpList_none]
    exact ⟨fun h => ⟨fun _ he => (by cases he), fun l' x hx => by cases hx with | list _ _ hm => exact h.2.1 x hm⟩,
      fun h => ⟨rfl, fun x hm => h.2 _ _ (.list vs x hm), rfl⟩⟩
  | tuple vs =>
    rw [dump, seq_none, seq_none, dumpList_none]
    exact ⟨fun h => ⟨fun _ he => (by cases he), fun l' x hx => by cases hx with | tuple _ _ hm => exact h.2.1 x hm⟩,
      fun h => ⟨rfl, fun x hm => h.2 _ _ (.tuple vs x hm), rfl⟩⟩
  | set vs =>
    rw [dump, seq_none, seq_none, dumpList_none]
    exact ⟨fun h => ⟨fun _ he => (by cases he), fun l' x hx => by cases hx with | set _ _ hm => exact h.2.1 x hm⟩,
      fun h => ⟨rfl, fun x hm => h.2 _ _ (.set vs x hm), rfl⟩⟩
  | eqn a b => exact ⟨fun _ => ⟨fun _ he => (by cases he), fun l' x hx => (by cases hx)⟩, fun _ => by rw [dump]⟩
  | str a => exact ⟨fun _ => ⟨fun _ he => (by cases he), fun l' x hx => (by cases hx)⟩, fun _ => by rw [dump]⟩
  | other a => exact ⟨fun _ => ⟨fun _ he => (by cases he), fun l' x hx => (by cases hx)⟩, fun _ => by rw [dump]⟩

/-- Parts of an entry are parts of the whole. -/
theorem part_lift {l₀ l : String} {v w : Val} (h : Spec.Entry v l w) {d : Nat} {l' : String} {x : Val} (hp : Spec.Part l w d l' x) :
    Spec.Part l₀ v (d + 1) l' x := by
  induction hp with
  | self => exact .entry .self h
  | entry _ e ih => exact .entry ih e

theorem part_label {l₀ l₁ : String} {v : Val} {d : Nat} {l : String} {w : Val} (h : Spec.Part l₀ v d l w) : ∃ l', Spec.Part l₁ v d l' w := by
  induction h with
  | self => exact ⟨_, .self⟩
  | entry _ e ih =>
    obtain ⟨l', hl⟩ := ih
    exact ⟨_, .entry hl e⟩

/-- Every part of a value that prints prints itself, with its place. -/
theorem part_none {i c : Nat} {l₀ : String} {v : Val} (h : (dump i c l₀ v).2 = none) {d : Nat} {l : String} {w : Val} (hp : Spec.Part l₀ v d l w) :
    (dump i (c + i * d) l w).2 = none := by
  induction hp with
  | self => simpa using h
  | entry _ e ih =>
    have := ((dump_none _ _ _ _).1 ih).2 _ _ e
    rwa [Nat.mul_succ, ← Nat.add_assoc]

theorem sizeOf_mem_list {vs : List Val} {w : Val} (h : w ∈ vs) : sizeOf w < sizeOf vs := List.sizeOf_lt_of_mem h

theorem entry_size {v w : Val} {l : String} (h : Spec.Entry v l w) : sizeOf w < sizeOf v := by
  cases h with
  | none es _ hm => have := List.sizeOf_lt_of_mem hm; simp at this ⊢; omega
  | key es k _ hm => have := List.sizeOf_lt_of_mem hm; simp at this ⊢; omega
  | list vs _ hm => have := List.sizeOf_lt_of_mem hm; simp; omega
  | tuple vs _ hm => have := List.sizeOf_lt_of_mem hm; simp; omega
  | set vs _ hm => have := List.sizeOf_lt_of_mem hm; simp; omega

theorem none_of_textKeys : ∀ (n : Nat) (v : Val), sizeOf v ≤ n → Spec.TextKeys v → ∀ (i c : Nat) (l : String), (dump i c l v).2 = none := by
  intro n
  induction n with
  | zero => intro v hv; cases v <;> simp at hv
  | succ n ih =>
    intro v hv ht i c l
    rw [dump_none]
    refine ⟨fun es he k x hm => ht 0 "" es (he ▸ .self) k x hm, fun l' x hx => ?_⟩
    refine ih x (by have := entry_size hx; omega) (fun d m es hp => ?_) i _ l'
    obtain ⟨m', hp'⟩ := part_label (l₁ := l') hp
    exact ht (d + 1) m' es (part_lift hx hp')

theorem dump_err : ∀ (n : Nat) (v : Val), sizeOf v ≤ n → ∀ (i c : Nat) (l : String) (e : PyErr), (dump i c l v).2 = some e → e = .typeError := by
  intro n
  induction n with
  | zero => intro v hv; cases v <;> simp at hv
  | succ n ih =>
    have hl : ∀ (vs : List Val), (∀ w ∈ vs, sizeOf w ≤ n) → ∀ (i c : Nat) (e : PyErr), (dumpList i c vs).2 = some e → e = .typeError := by
      intro vs
      induction vs with
      | nil => intro _ i c e h; simp [dumpList] at h
      | cons w vs ihv =>
        intro hs i c e h
        rw [dumpList] at h
        rcases seq_err h with h | h
        · exact ih w (hs w (List.mem_cons_self ..)) _ _ _ _ h
        · exact ihv (fun w hw => hs w (List.mem_cons_of_mem _ hw)) _ _ _ h
    have he : ∀ (es : List (Key × Val)), (∀ k w, (k, w) ∈ es → sizeOf w ≤ n) → ∀ (i c : Nat) (e : PyErr), (dumpEntries i c es).2 = some e → e = .typeError := by
      intro es
      induction es with
      | nil => intro _ i c e h; simp [dumpEntries] at h
      | cons p es ihv =>
        obtain ⟨k, w⟩ := p
        intro hs i c e h
        rw [dumpEntries] at h
        cases hk : k.label with
        | none => rw [hk] at h; simp at h; exact h.symm
        | some l =>
          rw [hk] at h
          simp only at h
          rcases seq_err h with h | h
          · exact ih w (hs k w (List.mem_cons_self ..)) _ _ _ _ h
          · exact ihv (fun k w hw => hs k w (List.mem_cons_of_mem _ hw)) _ _ _ h
    intro v hv i c l e h
    have hv' : ∀ l' w, Spec.Entry v l' w → sizeOf w ≤ n := fun l' w hw => by have := entry_size hw; omega
    cases v with
    | dict es =>
      rw [dump] at h
      rcases seq_err h with h | h
      · cases h
      · rcases seq_err h with h | h
        · refine he es (fun k w hm => ?_) _ _ _ h
          have := List.sizeOf_lt_of_mem hm
          simp at this hv
          omega
        · cases h
    | list vs =>
      rw [dump] at h
      rcases seq_err h with h | h
      · cases h
      · rcases seq_err h with h | h
        · exact hl vs (fun w hm => hv' _ _ (.list vs w hm)) _ _ _ h
        · cases h
    | tuple vs =>
      rw [dump] at h
      rcases seq_err h with h | h
      · cases h
      · rcases seq_err h with h | h
        · exact hl vs (fun w hm => hv' _ _ (.tuple vs w hm)) _ _ _ h
        · cases h
    | set vs =>
      rw [dump] at h
      rcases seq_err h with h | h
      · cases h
      · rcases seq_err h with h | h
        · exact hl vs (fun w hm => hv' _ _ (.set vs w hm)) _ _ _ h
        · cases h
    | eqn a b => rw [dump] at h; cases h
    | str a => rw [dump] at h; cases h
    | other a => rw [dump] at h; cases h

theorem mem_dumpList {i c : Nat} {vs : List Val} (h : (dumpList i c vs).2 = none) {w : Val} (hw : w ∈ vs) {s : String} (hs : s ∈ (dump i c "" w).1) :
    s ∈ (dumpList i c vs).1 := by
  induction vs with
  | nil => cases hw
  | cons v vs ih =>
    rw [dumpList] at h ⊢
    rw [seq_lines h, List.mem_append]
    rcases List.mem_cons.1 hw with rfl | hw
    · exact Or.inl hs
    · exact Or.inr (ih (seq_none.1 h).2 hw)

theorem mem_dumpEntries {i c : Nat} {es : List (Key × Val)} (h : (dumpEntries i c es).2 = none) {k : Key} {l : String} (hk : k.label = some l) {w : Val}
    (hw : (k, w) ∈ es) {s : String} (hs : s ∈ (dump i c l w).1) : s ∈ (dumpEntries i c es).1 := by
  induction es with
  | nil => cases hw
  | cons p es ih =>
    obtain ⟨k', v⟩ := p
    rw [dumpEntries] at h ⊢
    cases hk' : k'.label with
    | none => rw [hk'] at h; cases h
    | some l' =>
      rw [hk'] at h
      simp only at h ⊢
      rw [seq_lines h, List.mem_append]
      rcases List.mem_cons.1 hw with hw | hw
      · cases hw
        rw [hk] at hk'
        cases hk'
        exact Or.inl hs
      · exact Or.inr (ih (seq_none.1 h).2 hw)

/-- The lines of an entry are lines of the whole. -/
theorem entry_lines {i c : Nat} {l : String} {v : Val} (h : (dump i c l v).2 = none) {l' : String} {x : Val} (hx : Spec.Entry v l' x) {s : String}
    (hs : s ∈ (dump i (c + i) l' x).1) : s ∈ (dump i c l v).1 := by
  cases hx with
  | none es _ hm =>
    rw [dump] at h ⊢
    have h' := (seq_none.1 h).2
    rw [seq_lines h, seq_lines h', List.mem_append, List.mem_append]
    exact Or.inr (Or.inl (mem_dumpEntries (seq_none.1 h').1 rfl hm hs))
  | key es k _ hm =>
    rw [dump] at h ⊢
    have h' := (seq_none.1 h).2
    rw [seq_lines h, seq_lines h', List.mem_append, List.mem_append]
    have : k ++ " : " = label (some k) ":" := by simp [label, String.append_assoc]
    rw [this] at hs
    exact Or.inr (Or.inl (mem_dumpEntries (seq_none.1 h').1 rfl hm hs))
  | list vs _ hm =>
    rw [dump] at h ⊢
    have h' := (seq_none.1 h).2
    rw [seq_lines h, seq_lines h', List.mem_append, List.mem_append]
    exact Or.inr (Or.inl (mem_dumpList (seq_none.1 h').1 hm hs))
  | tuple vs _ hm =>
    rw [dump] at h ⊢
    have h' := (seq_none.1 h).2
    rw [seq_lines h, seq_lines h', List.mem_append, List.mem_append]
    exact Or.inr (Or.inl (mem_dumpList (seq_none.1 h').1 hm hs))
  | set vs _ hm =>
    rw [dump] at h ⊢
    have h' := (seq_none.1 h).2
    rw [seq_lines h, seq_lines h', List.mem_append, List.mem_append]
    exact Or.inr (Or.inl (mem_dumpList (seq_none.1 h').1 hm hs))

theorem first_line {i c : Nat} {l : String} {v : Val} : spaces c ++ l ++ Spec.lineOf v ∈ (dump i c l v).1 := by
  have hm : ∀ (s : String) (b : Out), s ∈ (Out.seq ([s], none) b).1 := by
    intro s b; simp [Out.seq]
  cases v <;> rw [dump] <;> simp only [Spec.lineOf]
  · exact hm _ _
  · exact hm _ _
  · exact hm _ _
  · exact hm _ _
  · simp [String.append_assoc]
  · simp [String.append_assoc]
  · simp

end Dumper

/-- The label of an object. -/
def Spec.name (n : Option String) (eq : String) : String :=
  match n with
  | none => ""
  | some n => n ++ " " ++ eq ++ " "

/-- **C156 (outcome).** Printing fails iff somewhere in the object there is a dictionary with a key that is neither text nor `None`; the error is a `TypeError`. -/
theorem C156_outcome (v : Val) (name : Option String) (eq : String) (indent cur : Nat) :
    ((dumper v name eq indent cur).2 = none ↔ Spec.TextKeys v) ∧ ∀ e, (dumper v name eq indent cur).2 = some e → e = .typeError := by
  refine ⟨⟨fun h d l es hp k x hm => ?_, fun h => none_of_textKeys _ v (Nat.le_refl _) h _ _ _⟩, fun e he => dump_err _ v (Nat.le_refl _) _ _ _ e he⟩
  obtain ⟨l', hp'⟩ := part_label (l₁ := label name eq) hp
  exact ((dump_none _ _ _ _).1 (part_none h hp')).1 es rfl k x hm

/-- **C156 (nothing is left out).** If printing succeeds, every part of the object is on a line of its own, with its name and indented by its depth. -/
theorem C156_every_part (v : Val) (name : Option String) (eq : String) (indent cur : Nat) (h : Spec.TextKeys v) {d : Nat} {l : String} {w : Val}
    (hp : Spec.Part (Spec.name name eq) v d l w) :
    String.ofList (List.replicate (cur + indent * d) ' ') ++ l ++ Spec.lineOf w ∈ (dumper v name eq indent cur).1 := by
  have hn : ∀ c l, (dump indent c l v).2 = none := none_of_textKeys _ v (Nat.le_refl _) h indent
  have gen : ∀ s, s ∈ (dump indent (cur + indent * d) l w).1 → s ∈ (dump indent cur (Spec.name name eq) v).1 := by
    induction hp with
    | self => intro s hs; simpa using hs
    | entry hp' e ih =>
      intro s hs
      refine ih s (entry_lines (part_none (hn _ _) hp') e ?_)
      rwa [Nat.add_assoc, ← Nat.mul_succ]
  exact gen _ first_line

/-- **C156 (order).** If printing succeeds, the entries are printed one after the other in their order, between the brackets. -/
theorem C156_order (name : Option String) (eq : String) (indent cur : Nat) :
    (∀ vs, Spec.TextKeys (.list vs) → (dumper (.list vs) name eq indent cur).1 =
      [String.ofList (List.replicate cur ' ') ++ Spec.name name eq ++ "["] ++ vs.flatMap (fun w => (dumper w none "=" indent (cur + indent)).1) ++
        [String.ofList (List.replicate cur ' ') ++ "]"]) ∧
    (∀ vs, Spec.TextKeys (.tuple vs) → (dumper (.tuple vs) name eq indent cur).1 =
      [String.ofList (List.replicate cur ' ') ++ Spec.name name eq ++ "("] ++ vs.flatMap (fun w => (dumper w none "=" indent (cur + indent)).1) ++
        [String.ofList (List.replicate cur ' ') ++ ")"]) ∧
    (∀ vs, Spec.TextKeys (.set vs) → (dumper (.set vs) name eq indent cur).1 =
      [String.ofList (List.replicate cur ' ') ++ Spec.name name eq ++ "{"] ++ vs.flatMap (fun w => (dumper w none "=" indent (cur + indent)).1) ++
        [String.ofList (List.replicate cur ' ') ++ "}"]) ∧
    ∀ (kvs : List (String × Val)), Spec.TextKeys (.dict (kvs.map fun p => (.text p.1, p.2))) →
      (dumper (.dict (kvs.map fun p => (.text p.1, p.2))) name eq indent cur).1 =
      [String.ofList (List.replicate cur ' ') ++ Spec.name name eq ++ "{"] ++
        kvs.flatMap (fun p => (dumper p.2 (some p.1) ":" indent (cur + indent)).1) ++ [String.ofList (List.replicate cur ' ') ++ "}"] := by
  have hl : ∀ (c : Nat) (vs : List Val), (dumpList indent c vs).2 = none →
      (dumpList indent c vs).1 = vs.flatMap (fun w => (dumper w none "=" indent c).1) := by
    intro c vs
    induction vs with
    | nil => intro _; simp [dumpList]
    | cons v vs ih =>
      intro h
      rw [dumpList] at h ⊢
      rw [seq_lines h, ih (seq_none.1 h).2, List.flatMap_cons]
      rfl
  have hd : ∀ (c : Nat) (kvs : List (String × Val)), (dumpEntries indent c (kvs.map fun p => (.text p.1, p.2))).2 = none →
      (dumpEntries indent c (kvs.map fun p => (.text p.1, p.2))).1 = kvs.flatMap (fun p => (dumper p.2 (some p.1) ":" indent c).1) := by
    intro c kvs
    induction kvs with
    | nil => intro _; simp [dumpEntries]
    | cons p kvs ih =>
      intro h
      rw [List.map_cons, dumpEntries] at h ⊢
      simp only [Key.label] at h ⊢
      rw [seq_lines h, ih (seq_none.1 h).2, List.flatMap_cons]
      rfl
  refine ⟨fun vs h => ?_, fun vs h => ?_, fun vs h => ?_, fun kvs h => ?_⟩
  all_goals
    have hn := none_of_textKeys _ _ (Nat.le_refl _) h indent cur (label name eq)
    unfold dumper
    rw [dump] at hn ⊢
    have h' := (seq_none.1 hn).2
    rw [seq_lines hn, seq_lines h']
  · rw [hl _ _ (seq_none.1 h').1, ← List.append_assoc]; rfl
  · rw [hl _ _ (seq_none.1 h').1, ← List.append_assoc]; rfl
  · rw [hl _ _ (seq_none.1 h').1, ← List.append_assoc]; rfl
  · rw [hd _ _ (seq_none.1 h').1, ← List.append_assoc]; rfl

/-- **C156** refuted: an empty dictionary and an empty set look the same, so the print does not tell what was printed. -/
theorem C156_readable_refuted : dumper (.dict []) = dumper (.set []) ∧ dumper (.str "x") = dumper (.other "'x'") := by
  constructor <;> decide +kernel

/-- The hypotheses are met: `{'a': [1, 'x'], None: (2,)}`. -/
theorem C156_hypotheses_met :
    dumper (.dict [(.text "a", .list [.other "1", .str "x"]), (.none, .tuple [.other "2"])]) =
      (["{", "    a : [", "        1", "        'x'", "    ]", "    (", "        2", "    )", "}"], none) ∧
    (dumper (.dict [(.text "a", .other "1"), (.other, .other "2")])) = (["{", "    a : 1"], some .typeError) := by
  constructor <;> decide +kernel

end Pydsge
