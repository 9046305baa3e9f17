import Verif.Model.Files
import Mathlib.Data.List.Nodup
import Mathlib.Data.List.Forall2
import Mathlib.Data.Rat.Defs
import Mathlib.Tactic.Tauto
import Mathlib.Tactic.IntervalCases

/-!
# C59-C62: samples, files, data, indices
-/

set_option autoImplicit false
set_option linter.unusedSectionVars false
set_option linter.unusedSimpArgs false

namespace Pydsge

open Pydsge.Files

/-! ## C60 -/

/-- A relative path is put behind the directory of the model. -/
def full (a b : Path) : Path := if isAbs b then b else join a b

theorem isAbs_append {b t : Path} (h : b = [] → isAbs t = false) : isAbs (b ++ t) = isAbs b := by
  cases b with
  | nil => simpa [isAbs] using h rfl
  | cons x xs => simp [isAbs]

theorem full_append {a b t : Path} (h : b = [] → isAbs t = false) : full a (b ++ t) = full a b ++ t := by
  unfold full
  rw [isAbs_append h]
  unfold join
  rw [isAbs_append h]
  cases isAbs b with
  | true => simp
  | false =>
    simp only [Bool.false_eq_true, if_false]
    split_ifs <;> simp

theorem endsNpz_append {x y : Path} (h : 4 ≤ y.length) : endsNpz (x ++ y) = endsNpz y := by
  unfold endsNpz
  rw [List.length_append, show x.length + y.length - 4 = x.length + (y.length - 4) by omega, List.drop_append,
    List.drop_eq_nil_of_le (by omega)]
  simp

theorem full_eq (a b : Path) : ∃ pre, full a b = pre ++ b := by
  unfold full join
  split_ifs
  · exact ⟨[], rfl⟩
  · exact ⟨a, rfl⟩
  · exact ⟨a ++ ['/'], by simp⟩

theorem savezName_length (s : Path) : (savezName s).length ≤ s.length + 4 := by
  unfold savezName
  split_ifs <;> simp [npz]

/-- The name that a `path` argument stands for. -/
def Spec.baseName (name : Path) : PathArg → Path
  | .str s => s
  | _ => name ++ "_res".toList

/-- The name ends in `.npz`. -/
def Spec.EndsNpz (s : Path) : Prop := ∃ r, s = r ++ ".npz".toList

theorem ends_in_npz_iff (s : Path) : endsNpz s = true ↔ Spec.EndsNpz s := by
  unfold endsNpz Spec.EndsNpz
  rw [decide_eq_true_iff]
  constructor
  · intro h
    exact ⟨s.take (s.length - 4), by rw [show ".npz".toList = npz from rfl, ← h, List.take_append_drop]⟩
  · rintro ⟨r, rfl⟩
    simp [npz]

theorem not_ends_in_npz_iff (s : Path) : endsNpz s = false ↔ ¬ Spec.EndsNpz s := by
  rw [← ends_in_npz_iff, Bool.not_eq_true]

theorem isAbs_false_iff (s : Path) : isAbs s = false ↔ s.head? ≠ some '/' := by
  unfold isAbs
  exact decide_eq_false_iff_not

/-- **C60 (names).** For a name of at least four characters (and a suffix that is not itself an absolute path), the file that `load_rdict` reads
is the one that `save_rdict` wrote if and only if neither the name nor the name with its suffix ends in `.npz`. -/
theorem C60_names (selfPath name : Path) (path : PathArg) (suffix : Path) (hp : path ≠ .other)
    (hlen : 4 ≤ (Spec.baseName name path ++ suffix).length) (habs : Spec.baseName name path = [] → suffix.head? ≠ some '/') :
    loadName selfPath name path suffix = .ok (saveName selfPath name path suffix) ↔
      ¬ Spec.EndsNpz (Spec.baseName name path) ∧ ¬ Spec.EndsNpz (Spec.baseName name path ++ suffix) := by
  simp only [← not_ends_in_npz_iff]
  simp only [← isAbs_false_iff] at habs
  have hload : loadName selfPath name path suffix = .ok (full selfPath (Spec.baseName name path) ++ suffix ++ npz) := by
    have : loadName selfPath name path suffix = .ok (full selfPath (Spec.baseName name path ++ suffix ++ npz)) := by
      unfold loadName
      cases path with
      | other => exact absurd rfl hp
      | none =>
        simp only [Spec.baseName, show "_res".toList = resSuffix from rfl] at hlen ⊢
        rw [if_neg (by omega)]
        rfl
      | str s =>
        simp only [Spec.baseName] at hlen ⊢
        rw [if_neg (by omega)]
        rfl
    rw [this, full_append (by intro h; rw [h] at hlen; simp at hlen), full_append habs]
  have hsave : saveName selfPath name path suffix = savezName (full selfPath (if endsNpz (Spec.baseName name path) then
      (Spec.baseName name path).take ((Spec.baseName name path).length - 4) else Spec.baseName name path) ++ suffix) := by
    unfold saveName full
    cases path <;> rfl
  rw [hload, hsave]
  generalize Spec.baseName name path = b at *
  cases hb : endsNpz b with
  | true =>
    simp only [if_true, Except.ok.injEq, Bool.true_eq_false, false_and, iff_false]
    have hbe : b.take (b.length - 4) ++ npz = b := by
      have : b.drop (b.length - 4) = npz := by simpa [endsNpz] using hb
      rw [← this, List.take_append_drop]
    have hf : full selfPath b = full selfPath (b.take (b.length - 4)) ++ npz := by
      conv_lhs => rw [← hbe]
      exact full_append (fun _ => rfl)
    intro h
    have h1 := congrArg List.length h
    have h2 := savezName_length (full selfPath (b.take (b.length - 4)) ++ suffix)
    rw [hf] at h1
    simp only [List.length_append, npz, List.length_cons, List.length_nil] at h1 h2
    omega
  | false =>
    simp only [Bool.false_eq_true, if_false, Except.ok.injEq, true_and]
    have he : endsNpz (full selfPath b ++ suffix) = endsNpz (b ++ suffix) := by
      obtain ⟨pre, hpre⟩ := full_eq selfPath b
      rw [hpre, List.append_assoc, endsNpz_append hlen]
    unfold savezName
    rw [he]
    cases endsNpz (b ++ suffix) with
    | false => simp
    | true =>
      simp only [if_true, Bool.true_eq_false, iff_false]
      intro h
      have h1 := congrArg List.length h
      simp only [List.length_append, npz, List.length_cons, List.length_nil] at h1
      omega

section
variable {F D : Type} [DecidableEq F]

/-- **C60 (partial).** `load_rdict` returns what was saved with the same arguments, whatever was saved before and whatever is saved later to other
files, for names of at least four characters that, with or without suffix, do not end in `.npz`. Missing: all other names. -/
theorem C60_load_after_save_partial (canon : Path → F) (selfPath name : Path) (fs : F → Option D) (s : Save D) (later : List (Save D))
    (hp : s.path ≠ .other) (hlen : 4 ≤ (Spec.baseName name s.path ++ s.suffix).length)
    (habs : Spec.baseName name s.path = [] → s.suffix.head? ≠ some '/') (h1 : ¬ Spec.EndsNpz (Spec.baseName name s.path))
    (h2 : ¬ Spec.EndsNpz (Spec.baseName name s.path ++ s.suffix))
    (hlater : ∀ s' ∈ later, canon (saveName selfPath name s'.path s'.suffix) ≠ canon (saveName selfPath name s.path s.suffix)) :
    loadRdict canon selfPath name (later.foldl (saveRdict canon selfPath name) (saveRdict canon selfPath name fs s)) s.path s.suffix = .ok s.rdict := by
  unfold loadRdict
  rw [(C60_names selfPath name s.path s.suffix hp hlen habs).2 ⟨h1, h2⟩]
  have key : ∀ (later : List (Save D)) (fs' : F → Option D), fs' (canon (saveName selfPath name s.path s.suffix)) = some s.rdict →
      (∀ s' ∈ later, canon (saveName selfPath name s'.path s'.suffix) ≠ canon (saveName selfPath name s.path s.suffix)) →
      (later.foldl (saveRdict canon selfPath name) fs') (canon (saveName selfPath name s.path s.suffix)) = some s.rdict := by
    intro later
    induction later with
    | nil => intro fs' h _; exact h
    | cons s' ss ih =>
      intro fs' h hl
      refine ih _ ?_ (fun s'' hs => hl s'' (List.mem_cons_of_mem _ hs))
      unfold saveRdict
      rw [Function.update_of_ne (hl s' (List.mem_cons_self ..)).symm]
      exact h
  simp only
  rw [key later _ (by unfold saveRdict; rw [Function.update_self]) hlater]

end

/-- **C60 (negation).** Results saved as `abc.npz` cannot be loaded as `abc.npz`, and results saved as `abc` cannot be loaded as `abc`. -/
theorem C60_load_after_save_refuted (D : Type) (d : D) :
    let fs0 : Path → Option D := fun _ => none
    let dir : Path := ['m']
    let f := saveRdict id dir ['x'] fs0 ⟨.str ['a', 'b', 'c', '.', 'n', 'p', 'z'], [], d⟩
    let g := saveRdict id dir ['x'] fs0 ⟨.str ['a', 'b', 'c'], [], d⟩
    loadRdict id dir ['x'] f (.str ['a', 'b', 'c', '.', 'n', 'p', 'z']) [] = .error .osError ∧
      f ['m', '/', 'a', 'b', 'c', '.', 'n', 'p', 'z'] = some d ∧
      loadRdict id dir ['x'] g (.str ['a', 'b', 'c']) [] = .error .indexError ∧ g ['m', '/', 'a', 'b', 'c', '.', 'n', 'p', 'z'] = some d := by
  refine ⟨?_, rfl, rfl, rfl⟩
  have h1 : loadName ['m'] ['x'] (.str ['a', 'b', 'c', '.', 'n', 'p', 'z']) [] = .ok ("m/abc.npz.npz".toList) := by decide +kernel
  have h2 : saveName ['m'] ['x'] (.str ['a', 'b', 'c', '.', 'n', 'p', 'z']) [] = "m/abc.npz".toList := by decide +kernel
  simp only [loadRdict, saveRdict, h1, h2, id]
  rw [Function.update_of_ne (by decide +kernel)]

/-- Non-vacuity: default name with a suffix; a later save under another name. -/
example : loadRdict id "m".toList "x".toList (([⟨.str "other".toList, [], 2⟩] : List (Save Nat)).foldl (saveRdict id "m".toList "x".toList)
    (saveRdict id "m".toList "x".toList (fun _ => none) ⟨.none, "_1".toList, 1⟩)) .none "_1".toList = .ok 1 :=
  C60_load_after_save_partial id _ _ _ ⟨.none, "_1".toList, 1⟩ _ (by simp) (by decide +kernel) (by decide +kernel)
    (by rw [← not_ends_in_npz_iff]; decide +kernel) (by rw [← not_ends_in_npz_iff]; decide +kernel) (by decide +kernel)

/-! ## C62 -/

/-- `i` is the position at which `v` first occurs in `xs`. -/
def Spec.FirstAt (xs : List String) (v : String) (i : Nat) : Prop := xs[i]? = some v ∧ ∀ j < i, xs[j]? ≠ some v

theorem indexOf_ok (xs : List String) (v : String) (i : Nat) : indexOf xs v = .ok i ↔ Spec.FirstAt xs v i := by
  unfold indexOf Spec.FirstAt
  cases h : xs.findIdx? (· = v) with
  | none =>
    simp only [reduceCtorEq, false_iff, not_and]
    rw [List.findIdx?_eq_none_iff] at h
    intro hi
    have := h v (List.mem_of_getElem? hi)
    simp at this
  | some k =>
    rw [List.findIdx?_eq_some_iff_getElem] at h
    obtain ⟨hk, h1, h2⟩ := h
    simp only [decide_eq_true_eq] at h1
    simp only [Except.ok.injEq]
    constructor
    · rintro rfl
      refine ⟨by rw [List.getElem?_eq_getElem hk, h1], ?_⟩
      intro j hj hx
      have := h2 j hj
      rw [List.getElem?_eq_getElem (by omega)] at hx
      simp only [Option.some.injEq] at hx
      simp [hx] at this
    · rintro ⟨a1, a2⟩
      rcases lt_trichotomy k i with hlt | heq | hgt
      · exact absurd (by rw [List.getElem?_eq_getElem hk, h1]) (a2 k hlt)
      · exact heq
      · have := h2 i hgt
        rw [List.getElem?_eq_getElem (by omega)] at a1
        simp only [Option.some.injEq] at a1
        simp [a1] at this

theorem indexOf_error (xs : List String) (v : String) (e : PyErr) : indexOf xs v = .error e ↔ e = .valueError ∧ v ∉ xs := by
  unfold indexOf
  cases h : xs.findIdx? (· = v) with
  | none =>
    rw [List.findIdx?_eq_none_iff] at h
    simp only [Except.error.injEq]
    constructor
    · rintro rfl
      refine ⟨rfl, fun hv => ?_⟩
      have := h v hv
      simp at this
    · rintro ⟨rfl, _⟩
      rfl
  | some k =>
    rw [List.findIdx?_eq_some_iff_getElem] at h
    obtain ⟨hk, h1, _⟩ := h
    simp only [decide_eq_true_eq] at h1
    simp only [reduceCtorEq, false_iff, not_and, not_not]
    intro _
    rw [← h1]
    exact List.getElem_mem hk

theorem indexOf_mem {xs : List String} {v : String} {i : Nat} (h : indexOf xs v = .ok i) : v ∈ xs :=
  List.mem_of_getElem? ((indexOf_ok xs v i).1 h).1

/-- **C62 (vix).** With `dontfail=False`, the indices are those of all names in the order of the request, and an unknown name raises; with
`dontfail=True`, they are those of the known names. -/
theorem C62_vix (vv vs : List String) :
    ((∀ v ∈ vs, v ∈ vv) → ∃ is, vix vv false vs = .ok is ∧ List.Forall₂ (Spec.FirstAt vv) vs is) ∧
    ((∃ v ∈ vs, v ∉ vv) → vix vv false vs = .error .valueError) ∧
    (∃ is, vix vv true vs = .ok is ∧ List.Forall₂ (Spec.FirstAt vv) (vs.filter (· ∈ vv)) is) := by
  induction vs with
  | nil => exact ⟨fun _ => ⟨[], rfl, .nil⟩, fun ⟨_, h, _⟩ => by simp at h, ⟨[], rfl, .nil⟩⟩
  | cons v vs ih =>
    obtain ⟨ih1, ih2, is, ih3, ih4⟩ := ih
    cases hi : indexOf vv v with
    | ok i =>
      have hv := indexOf_mem hi
      have hf := (indexOf_ok vv v i).1 hi
      refine ⟨?_, ?_, ?_⟩
      · intro h
        obtain ⟨is', a, b⟩ := ih1 (fun w hw => h w (List.mem_cons_of_mem _ hw))
        exact ⟨i :: is', by simp only [vix, hi, a], .cons hf b⟩
      · rintro ⟨w, hw, hn⟩
        rcases List.mem_cons.1 hw with rfl | hw
        · exact absurd hv hn
        · simp only [vix, hi, ih2 ⟨w, hw, hn⟩]
      · refine ⟨i :: is, by simp only [vix, hi, ih3], ?_⟩
        rw [List.filter_cons_of_pos (by simpa using hv)]
        exact .cons hf ih4
    | error e =>
      obtain ⟨rfl, hv⟩ := (indexOf_error vv v e).1 hi
      refine ⟨?_, ?_, ?_⟩
      · intro h
        exact absurd (h v (List.mem_cons_self ..)) hv
      · intro _
        simp [vix, hi]
      · refine ⟨is, by simp [vix, hi, ih3], ?_⟩
        rw [List.filter_cons_of_neg (by simpa using hv)]
        exact ih4

/-- **C62 (oix).** -/
theorem C62_oix (obs vs : List String) :
    ((∀ v ∈ vs, v ∈ obs) → ∃ is, oix obs vs = .ok is ∧ List.Forall₂ (Spec.FirstAt obs) vs is) ∧
    ((∃ v ∈ vs, v ∉ obs) → oix obs vs = .error .valueError) := by
  unfold oix
  induction vs with
  | nil => exact ⟨fun _ => ⟨[], rfl, .nil⟩, fun ⟨_, h, _⟩ => by simp at h⟩
  | cons v vs ih =>
    obtain ⟨ih1, ih2⟩ := ih
    rw [List.mapM_cons]
    cases hi : indexOf obs v with
    | ok i =>
      refine ⟨?_, ?_⟩
      · intro h
        obtain ⟨is', a, b⟩ := ih1 (fun w hw => h w (List.mem_cons_of_mem _ hw))
        exact ⟨i :: is', by rw [a]; rfl, .cons ((indexOf_ok obs v i).1 hi) b⟩
      · rintro ⟨w, hw, hn⟩
        rcases List.mem_cons.1 hw with rfl | hw
        · exact absurd (indexOf_mem hi) hn
        · rw [ih2 ⟨w, hw, hn⟩]
          rfl
    | error e =>
      obtain ⟨rfl, hv⟩ := (indexOf_error obs v e).1 hi
      exact ⟨fun h => absurd (h v (List.mem_cons_self ..)) hv, fun _ => rfl⟩

example : vix ["a", "b", "c"] true ["c", "x", "a"] = .ok [2, 0] ∧ vix ["a", "b", "c"] false ["c", "x", "a"] = .error .valueError ∧
    oix ["a", "b", "c"] ["c", "a"] = .ok [2, 0] := by decide +kernel

/-! ## C61 -/

section
variable {I K : Type}

/-- `col` is the column of that name in the frame. -/
def Spec.IsColumn (df : Frame I K) (name : String) (col : List (Option K)) : Prop :=
  (name, col) ∈ df.cols ∧ ∀ c ∈ df.cols, c.1 = name → c.2 = col

/-- The entries at the given positions. -/
def Spec.at' {α : Type} (xs : List α) (pos : List Nat) : List α := pos.filterMap (xs[·]?)

theorem filter_name {cols : List (String × List (Option K))} (hn : (cols.map Prod.fst).Nodup) {n : String} (hm : n ∈ cols.map Prod.fst) :
    ∃ col, (n, col) ∈ cols ∧ cols.filter (fun c => c.1 = n) = [(n, col)] := by
  induction cols with
  | nil => simp at hm
  | cons c cs ih =>
    simp only [List.map_cons, List.nodup_cons] at hn
    by_cases hc : c.1 = n
    · refine ⟨c.2, by rw [← hc]; exact List.mem_cons_self .., ?_⟩
      rw [List.filter_cons_of_pos (by simpa using hc)]
      have : cs.filter (fun c => decide (c.1 = n)) = [] := by
        rw [List.filter_eq_nil_iff]
        intro d hd hdn
        apply hn.1
        rw [hc, ← (of_decide_eq_true hdn)]
        exact List.mem_map_of_mem hd
      rw [this, ← hc]
    · obtain ⟨col, h1, h2⟩ := ih hn.2 ((List.mem_cons.1 hm).resolve_left (fun h => hc h.symm))
      exact ⟨col, List.mem_cons_of_mem _ h1, by rw [List.filter_cons_of_neg (by simpa using hc)]; exact h2⟩

theorem isColumn_unique {df : Frame I K} (hn : (df.cols.map Prod.fst).Nodup) {n : String} {col : List (Option K)} (h : (n, col) ∈ df.cols) :
    Spec.IsColumn df n col := by
  refine ⟨h, fun c hc hcn => ?_⟩
  obtain ⟨col', h1, h2⟩ := filter_name hn (List.mem_map_of_mem (f := Prod.fst) h)
  have a1 : (n, col) ∈ df.cols.filter (fun c => c.1 = n) := List.mem_filter.2 ⟨h, by simp⟩
  have a2 : c ∈ df.cols.filter (fun c => c.1 = n) := List.mem_filter.2 ⟨hc, by simpa using hcn⟩
  rw [h2] at a1 a2
  simp only [List.mem_singleton] at a1 a2
  rw [a2]
  exact (congrArg Prod.snd a1).symm

theorem select_cols {df : Frame I K} (hn : (df.cols.map Prod.fst).Nodup) : ∀ {obs : List String}, (∀ o ∈ obs, o ∈ df.cols.map Prod.fst) →
    List.Forall₂ (fun o c => c.1 = o ∧ Spec.IsColumn df o c.2) obs (df.select obs).cols
  | [], _ => .nil
  | o :: obs, h => by
    obtain ⟨col, h1, h2⟩ := filter_name hn (h o (List.mem_cons_self ..))
    have := select_cols hn (obs := obs) (fun o' ho => h o' (List.mem_cons_of_mem _ ho))
    unfold Frame.select at this ⊢
    simp only [List.flatMap_cons, h2, List.cons_append, List.nil_append]
    exact .cons ⟨rfl, isColumn_unique hn h1⟩ this

/-- **C61 (partial).** For a data frame with distinct column names: `load_data` succeeds if and only if all observables are columns, the range
exists, and no selected value of an observable is missing. -/
theorem C61_succeeds_partial (loc : List I → Except PyErr (List Nat)) (obs : List String) (st : DataState I K) (df : Frame I K)
    (hn : (df.cols.map Prod.fst).Nodup) :
    (∃ d, (loadData loc obs st df).1 = .ok d) ↔ (∀ o ∈ obs, o ∈ df.cols.map Prod.fst) ∧ ∃ pos, loc df.index = .ok pos ∧
      ∀ o ∈ obs, ∀ col, Spec.IsColumn df o col → ∀ x ∈ Spec.at' col pos, x ≠ none := by
  unfold loadData
  by_cases hc : ∀ o ∈ obs, o ∈ df.cols.map Prod.fst
  · have hany : obs.any (fun o => o ∉ df.cols.map Prod.fst) = false := by
      rw [List.any_eq_false]
      intro o ho
      simpa using hc o ho
    rw [hany]
    have hidx : (df.select obs).index = df.index := rfl
    simp only [Bool.false_eq_true, if_false, hidx]
    cases hl : loc df.index with
    | error e => simp
    | ok pos =>
      have hsel := select_cols hn hc
      have hna : ((df.select obs).rows pos).cols.any (fun c => c.2.any (·.isNone)) = false ↔
          ∀ o ∈ obs, ∀ col, Spec.IsColumn df o col → ∀ x ∈ Spec.at' col pos, x ≠ none := by
        rw [List.any_eq_false]
        simp only [Frame.rows, List.mem_map, forall_exists_index, and_imp, forall_apply_eq_imp_iff₂, List.any_eq_true, not_exists, not_and,
          Bool.not_eq_true, Option.isNone_eq_false_iff]
        constructor
        · intro h o ho col hcol x hx
          obtain ⟨col', h1, h2⟩ := filter_name hn (hc o ho)
          have hmem : (o, col') ∈ (df.select obs).cols := by
            unfold Frame.select
            rw [List.mem_flatMap]
            exact ⟨o, ho, by rw [h2]; exact List.mem_cons_self ..⟩
          have := hcol.2 _ h1 rfl
          simp only at this
          have hs := h (o, col') hmem x (by rw [this]; exact hx)
          intro h0
          rw [h0] at hs
          simp at hs
        · intro h c hmem x hx
          unfold Frame.select at hmem
          rw [List.mem_flatMap] at hmem
          obtain ⟨o, ho, hcf⟩ := hmem
          rw [List.mem_filter] at hcf
          have hco : c.1 = o := by simpa using hcf.2
          have := h o ho c.2 (isColumn_unique hn (by rw [← hco]; exact hcf.1)) x hx
          exact Option.isSome_iff_ne_none.2 this
      cases hB : ((df.select obs).rows pos).cols.any (fun c => c.2.any (·.isNone)) with
      | true =>
        simp only [hB, if_true, reduceCtorEq, exists_false, false_iff, not_and, not_exists]
        intro _ pos' hp h
        obtain rfl := Except.ok.inj hp
        rw [hna.2 h] at hB
        cases hB
      | false =>
        simp only [hB, Bool.false_eq_true, if_false]
        exact ⟨fun _ => ⟨hc, pos, rfl, hna.1 hB⟩, fun _ => ⟨_, rfl⟩⟩
  · have hany : obs.any (fun o => o ∉ df.cols.map Prod.fst) = true := by
      rw [List.any_eq_true]
      push Not at hc
      obtain ⟨o, ho, hno⟩ := hc
      exact ⟨o, ho, by simpa using hno⟩
    rw [hany]
    simp only [if_true]
    exact ⟨fun ⟨d, hd⟩ => by simp at hd, fun h => absurd h.1 hc⟩

/-- **C61 (partial).** What `load_data` stores: for distinct column names, one column for each observable, in the model's order, with the selected
rows. The filter works on these columns. -/
theorem C61_stored_partial (loc : List I → Except PyErr (List Nat)) (obs : List String) (st : DataState I K) (df d : Frame I K)
    (hn : (df.cols.map Prod.fst).Nodup) (h : (loadData loc obs st df).1 = .ok d) :
    ∃ pos, loc df.index = .ok pos ∧ (loadData loc obs st df).2.data = some d ∧ (loadData loc obs st df).2.fdictData = some d ∧
      (loadData loc obs st df).2.fdictObs = some obs ∧
      d.index = Spec.at' df.index pos ∧
      List.Forall₂ (fun o c => c.1 = o ∧ ∃ col, Spec.IsColumn df o col ∧ c.2 = Spec.at' col pos) obs d.cols ∧
      filterZ (loadData loc obs st df).2 = .ok (d.cols.map Prod.snd) := by
  have hok := (C61_succeeds_partial loc obs st df hn).1 ⟨d, h⟩
  have hsel := select_cols hn hok.1
  obtain ⟨_, pos, hp, _⟩ := hok
  have hidx : (df.select obs).index = df.index := rfl
  have hld : loadData loc obs st df = (.ok d, ⟨some d, some d, some obs⟩) ∧ d = (df.select obs).rows pos := by
    unfold loadData at h ⊢
    split_ifs at h ⊢ with h1
    simp only [hidx, hp] at h ⊢
    cases hB : ((df.select obs).rows pos).cols.any (fun c => c.2.any (·.isNone)) with
    | true => simp [hB] at h
    | false =>
      simp only [hB, Bool.false_eq_true, if_false, Except.ok.injEq] at h ⊢
      subst h
      exact ⟨rfl, rfl⟩
  rw [hld.1]
  obtain ⟨_, rfl⟩ := hld
  refine ⟨pos, hp, rfl, rfl, rfl, rfl, ?_, rfl⟩
  simp only [Frame.rows]
  rw [List.forall₂_map_right_iff]
  exact hsel.imp (fun o c hc => ⟨hc.1, c.2, hc.2, rfl⟩)

/-- **C61 (failure).** If `load_data` raises, everything is as before. -/
theorem C61_failure (loc : List I → Except PyErr (List Nat)) (obs : List String) (st : DataState I K) (df : Frame I K) (e : PyErr)
    (h : (loadData loc obs st df).1 = .error e) : (loadData loc obs st df).2 = st := by
  unfold loadData at h ⊢
  split_ifs at h ⊢ with h1
  · rfl
  · simp only at h ⊢
    cases hl : loc (df.select obs).index with
    | error e' => rfl
    | ok pos =>
      simp only [hl] at h ⊢
      split_ifs at h ⊢ with h2
      rfl

end

/-- **C61 (negation).** A data frame with a column name that occurs twice is accepted, and the filter gets both columns for one observable. -/
theorem C61_duplicates_refuted : ∃ (df d : Frame Nat Rat) (st : DataState Nat Rat),
    loadData (fun _ => .ok [0]) ["y"] ⟨none, none, none⟩ df = (.ok d, st) ∧ filterZ st = .ok [[some 1], [some 2]] :=
  ⟨⟨[2000], [("y", [some 1]), ("y", [some 2])]⟩, ⟨[2000], [("y", [some 1]), ("y", [some 2])]⟩,
    ⟨some ⟨[2000], [("y", [some 1]), ("y", [some 2])]⟩, some ⟨[2000], [("y", [some 1]), ("y", [some 2])]⟩, some ["y"]⟩, rfl, rfl⟩

/-- Non-vacuity of C61: reordered columns, selected rows; a missing value outside the range does not matter. -/
example : (loadData (fun _ => .ok [1, 2]) ["y", "x"] ⟨none, none, none⟩
      (⟨[1, 2, 3], [("x", [none, some 2, some 3]), ("w", [none, none, none]), ("y", [some 4, some 5, some 6])]⟩ : Frame Nat Rat)).2 =
    ⟨some ⟨[2, 3], [("y", [some 5, some 6]), ("x", [some 2, some 3])]⟩, some ⟨[2, 3], [("y", [some 5, some 6]), ("x", [some 2, some 3])]⟩,
      some ["y", "x"]⟩ := rfl

/-! ## C59 -/

section
variable {P : Type}

theorem takeAll_ok (xs : List P) : ∀ (is : List Nat) (r : List P), takeAll xs is = .ok r ↔ List.Forall₂ (fun i x => xs[i]? = some x) is r
  | [], r => by
    simp only [takeAll, Except.ok.injEq, List.forall₂_nil_left_iff]
    exact eq_comm
  | i :: is, r => by
    unfold takeAll
    cases h : xs[i]? with
    | none =>
      simp only [reduceCtorEq, false_iff]
      intro hf
      cases hf with
      | cons h1 _ => rw [h] at h1; cases h1
    | some x =>
      simp only
      cases ht : takeAll xs is with
      | error e =>
        simp only [reduceCtorEq, false_iff]
        intro hf
        cases hf with
        | cons _ h2 => rw [(takeAll_ok xs is _).2 h2] at ht; cases ht
      | ok r' =>
        simp only [Except.ok.injEq]
        constructor
        · rintro rfl
          exact .cons h ((takeAll_ok xs is r').1 ht)
        · intro hf
          cases hf with
          | cons h1 h2 =>
            rw [h] at h1
            rw [(takeAll_ok xs is _).2 h2] at ht
            cases h1; cases ht; rfl

theorem takeAll_succeeds (xs : List P) : ∀ (is : List Nat), (∀ i ∈ is, i < xs.length) → ∃ r, takeAll xs is = .ok r
  | [], _ => ⟨[], rfl⟩
  | i :: is, h => by
    obtain ⟨r, hr⟩ := takeAll_succeeds xs is (fun j hj => h j (List.mem_cons_of_mem _ hj))
    have := h i (List.mem_cons_self ..)
    exact ⟨xs[i] :: r, by simp only [takeAll, List.getElem?_eq_getElem this, hr]⟩

/-- **C59 (posterior).** For every positive `tune`, every chain and whatever the random numbers are, `posterior_sampler` returns `nsamples`
parameter vectors, each of which is one of the last `tune` draws of some walker. (`choices` returns positions in its population.) -/
theorem C59_posterior (choices : Nat → Nat → List Nat) (hch : ∀ n k, 0 < n → (choices n k).length = k ∧ ∀ i ∈ choices n k, i < n)
    (stored : List (List P)) (tune : Nat) (ht : 1 ≤ tune) (nsamples : Nat) (hne : ∃ row ∈ stored.drop (stored.length - tune), row ≠ []) :
    ∃ r, posteriorSampler choices stored tune nsamples = .ok r ∧ r.length = nsamples ∧
      ∀ x ∈ r, ∃ t row, stored.length - tune ≤ t ∧ stored[t]? = some row ∧ x ∈ row := by
  have hs : sliceFrom stored (-(tune : Int)) = stored.drop (stored.length - tune) := by
    unfold sliceFrom
    rw [if_neg (by omega)]
    simp
  unfold posteriorSampler
  simp only [hs]
  have hpos : 0 < (stored.drop (stored.length - tune)).flatten.length := by
    obtain ⟨row, hr, hn⟩ := hne
    rw [List.length_pos_iff]
    intro h0
    rw [List.flatten_eq_nil_iff] at h0
    exact hn (h0 row hr)
  rw [if_neg (by omega)]
  obtain ⟨h1, h2⟩ := hch _ nsamples hpos
  obtain ⟨r, hr⟩ := takeAll_succeeds _ _ h2
  have hf := (takeAll_ok _ _ _).1 hr
  refine ⟨r, hr, by rw [← hf.length_eq, h1], ?_⟩
  intro x hx
  have hmem : x ∈ (stored.drop (stored.length - tune)).flatten := by
    clear hr h1 h2
    generalize choices (stored.drop (stored.length - tune)).flatten.length nsamples = is at hf
    induction hf with
    | nil => simp at hx
    | cons a _ ih =>
      rcases List.mem_cons.1 hx with rfl | hx
      · exact List.mem_of_getElem? a
      · exact ih hx
  rw [List.mem_flatten] at hmem
  obtain ⟨row, hrow, hxr⟩ := hmem
  obtain ⟨i, hi⟩ := List.getElem?_of_mem hrow
  rw [List.getElem?_drop] at hi
  exact ⟨_, row, by omega, hi, hxr⟩

/-- **C59 (get_sample, partial).** Whatever `get_sample` returns are `size` draws of the stored chain, taken at distinct positions from a single
walker: the `k`-th from the last, for the smallest `k` such that `k` steps of all walkers are at least 60 draws. Missing: that they are
recent. -/
theorem C59_get_sample_partial (choice : Nat → Nat → List Nat)
    (hch : ∀ n k, k ≤ n → (choice n k).length = k ∧ (choice n k).Nodup ∧ ∀ i ∈ choice n k, i < n)
    (stored : List (List P)) (nwalks : Nat) (hshape : ∀ ws ∈ stored, ws.length = nwalks) (size : Nat) (arg : Option (List (List P)))
    (r : List P) (h : getSample choice stored nwalks size arg = .ok r) :
    r.length = size ∧ ∃ k, 60 ≤ k * nwalks ∧ (∀ j, 60 ≤ j * nwalks → k ≤ j) ∧ k ≤ nwalks ∧ k ≤ stored.length ∧ size ≤ k * nwalks ∧
      ∃ ts : List Nat, ts.Nodup ∧ List.Forall₂ (fun t x => ∃ ws, stored[t]? = some ws ∧ ws[nwalks - k]? = some x) ts r := by
  unfold getSample at h
  simp only at h
  split_ifs at h with h1 h2 h3 h4
  have hpos : 0 < nwalks := Nat.pos_of_ne_zero h1
  obtain ⟨c1, c2, c3⟩ := hch (recentOf nwalks * nwalks) size (by omega)
  have hf := (takeAll_ok _ _ _).1 h
  refine ⟨by rw [← hf.length_eq, c1], recentOf nwalks, ?_, ?_, by omega, by omega, by omega, _, c2, hf.imp ?_⟩
  · unfold recentOf
    have := Nat.div_add_mod (60 + nwalks - 1) nwalks
    have h5 := Nat.mod_lt (60 + nwalks - 1) hpos
    rw [Nat.mul_comm]
    omega
  · intro j hj
    unfold recentOf
    rw [← Nat.lt_succ_iff, Nat.div_lt_iff_lt_mul hpos, Nat.succ_mul]
    omega
  intro t x hx
  have hr : 0 < recentOf nwalks := by
    unfold recentOf
    exact Nat.div_pos (by omega) (by omega)
  have key : ∀ (xs : List (List P)) (j : Nat), (∀ ws ∈ xs, j < ws.length) → ∀ (t : Nat) (x : P), (xs.filterMap fun ws => ws[j]?)[t]? = some x →
      ∃ ws, xs[t]? = some ws ∧ ws[j]? = some x := by
    intro xs j
    induction xs with
    | nil => intro _ t x h; simp at h
    | cons w ws ih =>
      intro hlen t x h
      have hw := hlen w (List.mem_cons_self ..)
      rw [List.filterMap_cons, List.getElem?_eq_getElem hw] at h
      cases t with
      | zero =>
        simp only [List.getElem?_cons_zero, Option.some.injEq] at h
        exact ⟨w, rfl, by rw [List.getElem?_eq_getElem hw, h]⟩
      | succ t => exact ih (fun ws' h' => hlen ws' (List.mem_cons_of_mem _ h')) t x (by simpa using h)
  exact key stored _ (fun ws hws => by rw [hshape ws hws]; omega) t x hx

/-- **C59 (negation, short).** With fewer than eight walkers, `get_sample` never returns anything. -/
theorem C59_few_walkers_refuted (choice : Nat → Nat → List Nat) (stored : List (List P)) (nwalks : Nat) (hn : nwalks < 8) (size : Nat)
    (arg : Option (List (List P))) : ∃ e, getSample choice stored nwalks size arg = .error e := by
  unfold getSample
  simp only
  by_cases h1 : nwalks = 0
  · exact ⟨_, if_pos h1⟩
  · rw [if_neg h1]
    by_cases h2 : recentOf nwalks > stored.length
    · exact ⟨_, if_pos h2⟩
    · rw [if_neg h2]
      have : recentOf nwalks > nwalks := by
        unfold recentOf
        interval_cases nwalks <;> simp at h1 ⊢
      rw [if_pos this]
      exact ⟨_, rfl⟩

end

/-- **C59 (negation, old draws).** With 60 walkers and 100 draws, the sample may contain the very first draw; 60 walkers are enough that the recent
part is the last draw only. The given chain is ignored. -/
theorem C59_get_sample_refuted : ∃ choice : Nat → Nat → List Nat,
    (∀ n k, k ≤ n → (choice n k).length = k ∧ (choice n k).Nodup ∧ ∀ i ∈ choice n k, i < n) ∧
    getSample choice ((List.range 100).map fun t => (List.range 60).map fun w => (t, w)) 60 1 (some [[(7, 7)]]) = .ok [(0, 59)] := by
  refine ⟨fun _ k => List.range k, fun n k h => ⟨List.length_range, List.nodup_range, fun i hi => ?_⟩, by decide +kernel⟩
  have := List.mem_range.1 hi
  omega

/-- Non-vacuity of C59: the last two of three draws of two walkers; a `get_sample` that works (60 walkers). -/
example : posteriorSampler (fun n k => (List.range k).map (· % n)) [[1, 2], [3, 4], [5, 6]] 2 5 = .ok [3, 4, 5, 6, 3] := by decide +kernel
example : ∃ row ∈ ([[1, 2], [3, 4], [5, 6]] : List (List Nat)).drop (3 - 2), row ≠ [] := ⟨[3, 4], by decide, by decide⟩

end Pydsge
