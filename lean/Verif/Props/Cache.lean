import Verif.Model.Cache
import Mathlib.Data.List.Basic
import Mathlib.Data.Int.Basic

/-!
# C42, C43: caches of the parser
-/

set_option autoImplicit false
set_option linter.unusedSectionVars false
set_option linter.unusedSimpArgs false

namespace Pydsge
namespace Cache

variable {B : Type} {parse : String → Option String → Except PyErr B} {dirname : String → String}

/-- Cached objects were parsed from the texts they carry, and nobody else holds them. -/
def Inv (parse : String → Option String → Except PyErr B) (st : St B) : Prop :=
  (∀ r ∈ st.cache, ∃ m, st.heap[r]? = some m ∧ parse m.yaml m.ffile = .ok m.body) ∧
  (∀ r ∈ st.cache, r ∉ st.held) ∧ (∀ r ∈ st.held, r < st.heap.length)

theorem inv_start (fs : String → Option String) : Inv parse (start fs : St B) := by
  simp [Inv, start]

theorem inv_step (st : St B) (h : Inv parse st) (e : Ev B) : Inv parse (step parse dirname st e) := by
  obtain ⟨h1, h2, h3⟩ := h
  have hlt : ∀ r ∈ st.cache, r < st.heap.length := by
    intro r hr
    obtain ⟨m, hm, _⟩ := h1 r hr
    exact (List.getElem?_eq_some_iff.1 hm).1
  cases e with
  | files fs => exact ⟨h1, h2, h3⟩
  | change r m =>
    simp only [step]
    split
    · rename_i hr
      refine ⟨fun r' hr' => ?_, h2, by simpa using h3⟩
      obtain ⟨m', hm', hp⟩ := h1 r' hr'
      have hne : r ≠ r' := fun he => h2 r' hr' (he ▸ hr)
      refine ⟨m', ?_, hp⟩
      show (st.heap.set r m)[r']? = some m'
      rw [List.getElem?_set_ne hne]; exact hm'
    · exact ⟨h1, h2, h3⟩
  | read mfile nocache =>
    simp only [step, read]
    split
    · exact ⟨h1, h2, h3⟩
    · rename_i mtxt _
      split
      · rename_i m _
        refine ⟨fun r hr => ?_, fun r hr => ?_, fun r hr => ?_⟩
        · obtain ⟨m', hm', hp⟩ := h1 r hr
          exact ⟨m', by rw [List.getElem?_append_left (hlt r hr)]; exact hm', hp⟩
        · have := hlt r hr
          simp only [List.mem_cons, not_or]
          exact ⟨by omega, h2 r hr⟩
        · simp only [List.mem_cons, List.length_append, List.length_cons, List.length_nil] at hr ⊢
          rcases hr with rfl | hr
          · omega
          · have := h3 r hr; omega
      · split
        · exact ⟨h1, h2, h3⟩
        · rename_i b hb
          refine ⟨fun r hr => ?_, fun r hr => ?_, fun r hr => ?_⟩
          · simp only [List.mem_append, List.mem_singleton] at hr
            rcases hr with hr | rfl
            · obtain ⟨m', hm', hp⟩ := h1 r hr
              exact ⟨m', by rw [List.getElem?_append_left (hlt r hr)]; exact hm', hp⟩
            · refine ⟨⟨b, mtxt, st.fs (funcFile mfile), dirname mfile⟩, ?_, hb⟩
              rw [List.getElem?_append_right (by omega)]
              simp
          · simp only [List.mem_append, List.mem_singleton] at hr
            simp only [List.mem_cons, not_or]
            rcases hr with hr | rfl
            · have := hlt r hr
              exact ⟨by omega, h2 r hr⟩
            · exact ⟨by omega, fun hm => by have := h3 _ hm; omega⟩
          · simp only [List.mem_cons, List.length_append, List.length_cons, List.length_nil] at hr ⊢
            rcases hr with rfl | hr
            · omega
            · have := h3 r hr; omega

theorem inv_run (fs : String → Option String) (evs : List (Ev B)) : Inv parse (run parse dirname fs evs) := by
  unfold run
  have : ∀ (evs : List (Ev B)) (st : St B), Inv parse st → Inv parse (evs.foldl (step parse dirname) st) := by
    intro evs
    induction evs with
    | nil => intro st h; exact h
    | cons e r ih => intro st h; exact ih _ (inv_step st h e)
  exact this evs _ (inv_start fs)

theorem crawl_some {st : St B} (h : Inv parse st) {mtxt : String} {ftxt : Option String} {m : PModel B} (hc : crawl mtxt ftxt st = some m) :
    (∃ r ∈ st.cache, st.heap[r]? = some m) ∧ parse m.yaml m.ffile = .ok m.body ∧ m.yaml = mtxt ∧ (ftxt ≠ none → m.ffile = ftxt) := by
  unfold crawl at hc
  have h1 := List.find?_some hc
  have h2 := List.mem_of_find?_eq_some hc
  obtain ⟨r, hr, hm⟩ := List.mem_filterMap.1 h2
  obtain ⟨m', hm', hp⟩ := h.1 r hr
  rw [hm] at hm'; injection hm' with hm'; subst hm'
  refine ⟨⟨r, hr, hm⟩, hp, ?_, ?_⟩
  · unfold useCached at h1
    cases ftxt with
    | none => simpa using h1
    | some t => simp at h1; exact h1.1
  · intro hne
    unfold useCached at h1
    cases ftxt with
    | none => exact absurd rfl hne
    | some t => simp at h1; exact h1.2

end Cache
open Cache
variable {B : Type} {parse : String → Option String → Except PyErr B} {dirname : String → String}

/-- The functions file of a model file: the ending of five characters (`.yaml`) is replaced by `_funcs.py`. -/
theorem C42_functions_file (stem ending : String) (h : ending.toList.length = 5) : funcFile (stem ++ ending) = stem ++ "_funcs.py" := by
  unfold funcFile sliceTo
  rw [if_neg (by decide), String.toList_append]
  have : (stem.toList ++ ending.toList).length - (- -5 : Int).toNat = stem.toList.length := by
    rw [List.length_append, h]
    simp
  rw [this, List.take_left', String.ofList_toList]
  rfl

example : funcFile "models/rank.yaml" = "models/rank_funcs.py" := C42_functions_file "models/rank" ".yaml" rfl

/-- **C42**, what holds: after every history, `read` returns an object that was parsed from the present text of the model file; also from the
present functions file if there is one or if the cache is not used; otherwise from a functions file with which a cached model with this text was
parsed. The path is right if the model was not taken from the cache. -/
theorem C42_read_partial (fs : String → Option String) (evs : List (Ev B)) (mfile : String) (nocache : Bool) (st' : St B) (r : Nat)
    (h : Cache.read parse dirname (run parse dirname fs evs) mfile nocache = (st', .ok r)) :
    ∃ m mtxt, st'.heap[r]? = some m ∧ r ∉ st'.cache ∧ st'.fs = (run parse dirname fs evs).fs ∧ st'.fs mfile = some mtxt ∧ m.yaml = mtxt ∧
      parse mtxt m.ffile = .ok m.body ∧
      ((st'.fs (funcFile mfile) ≠ none ∨ nocache = true) → m.ffile = st'.fs (funcFile mfile)) ∧
      (m.ffile ≠ st'.fs (funcFile mfile) ∨ m.path ≠ dirname mfile → nocache = false ∧
        ∃ r' ∈ (run parse dirname fs evs).cache, (run parse dirname fs evs).heap[r']? = some m) := by
  have hinv := inv_run (parse := parse) (dirname := dirname) fs evs
  generalize run parse dirname fs evs = st at h hinv ⊢
  have hlt : ∀ r ∈ st.cache, r < st.heap.length := by
    intro r hr
    obtain ⟨m, hm, _⟩ := hinv.1 r hr
    exact (List.getElem?_eq_some_iff.1 hm).1
  unfold Cache.read at h
  cases hf : st.fs mfile with
  | none => rw [hf] at h; simp at h
  | some mtxt =>
    rw [hf] at h
    dsimp only at h
    cases hc : crawl mtxt (st.fs (funcFile mfile)) st with
    | none =>
      rw [hc] at h
      dsimp only at h
      cases hp : parse mtxt (st.fs (funcFile mfile)) with
      | error e => rw [hp] at h; simp at h
      | ok b =>
        rw [hp] at h
        simp only [Prod.mk.injEq, Except.ok.injEq] at h
        obtain ⟨rfl, rfl⟩ := h
        refine ⟨⟨b, mtxt, st.fs (funcFile mfile), dirname mfile⟩, mtxt, ?_, ?_, rfl, hf, rfl, hp, fun _ => rfl, ?_⟩
        · simp
        · simp only [List.mem_append, List.mem_singleton, not_or]
          exact ⟨fun hm => by have := hlt _ hm; omega, by omega⟩
        · rintro (h | h) <;> exact absurd rfl h
    | some m =>
      rw [hc] at h
      cases nocache with
      | false =>
        simp only [Prod.mk.injEq, Except.ok.injEq] at h
        obtain ⟨rfl, rfl⟩ := h
        obtain ⟨h1, h2, h3, h4⟩ := crawl_some hinv hc
        subst h3
        refine ⟨m, m.yaml, by simp, fun hm => by have := hlt _ hm; omega, rfl, hf, rfl, h2, ?_, fun _ => ⟨rfl, h1⟩⟩
        rintro (h | h)
        · exact h4 h
        · cases h
      | true =>
        dsimp only at h
        cases hp : parse mtxt (st.fs (funcFile mfile)) with
        | error e => rw [hp] at h; simp at h
        | ok b =>
          rw [hp] at h
          simp only [Prod.mk.injEq, Except.ok.injEq] at h
          obtain ⟨rfl, rfl⟩ := h
          refine ⟨⟨b, mtxt, st.fs (funcFile mfile), dirname mfile⟩, mtxt, ?_, ?_, rfl, hf, rfl, hp, fun _ => rfl, ?_⟩
          · simp
          · simp only [List.mem_append, List.mem_singleton, not_or]
            exact ⟨fun hm => by have := hlt _ hm; omega, by omega⟩
          · rintro (h | h) <;> exact absurd rfl h

namespace CacheEx

/-- Parsing keeps the texts. -/
def parseTxt (m : String) (f : Option String) : Except PyErr (String × Option String) := .ok (m, f)

def dirOf (p : String) : String := if p = "a/m.yaml" then "a" else "b"

def files1 (p : String) : Option String := if p = "a/m.yaml" then some "model" else if p = "a/m_funcs.py" then some "funcs" else none
def files2 (p : String) : Option String := if p = "a/m.yaml" then some "model" else none
def files3 (p : String) : Option String := if p = "a/m.yaml" then some "model" else if p = "b/m.yaml" then some "model" else none

/-- `C42_read_partial` is about reads that succeed, also from the cache. -/
example : (Cache.read parseTxt dirOf (run parseTxt dirOf files1 [.read "a/m.yaml" false]) "a/m.yaml" false).2.toOption = some 2 := by decide +kernel

end CacheEx

/-- **C42** refuted: if the functions file is removed, `read` still returns the model with the functions. -/
theorem C42_functions_refuted : ∃ (parse : String → Option String → Except PyErr (String × Option String)) (dirname : String → String)
    (fs : String → Option String) (evs : List (Ev (String × Option String))) (mfile mtxt : String) (r : Nat) (m : PModel (String × Option String)),
    (Cache.read parse dirname (run parse dirname fs evs) mfile false).2.toOption = some r ∧
    (Cache.read parse dirname (run parse dirname fs evs) mfile false).1.heap[r]? = some m ∧
    (run parse dirname fs evs).fs mfile = some mtxt ∧
    parse mtxt ((run parse dirname fs evs).fs (funcFile mfile)) ≠ .ok m.body := by
  refine ⟨CacheEx.parseTxt, CacheEx.dirOf, CacheEx.files1, [.read "a/m.yaml" false, .files CacheEx.files2], "a/m.yaml", "model", 2,
    ⟨("model", some "funcs"), "model", some "funcs", "a"⟩, ?_, ?_, ?_, ?_⟩
  · decide +kernel
  · decide +kernel
  · decide +kernel
  · intro h
    have : (CacheEx.parseTxt "model" ((run CacheEx.parseTxt CacheEx.dirOf CacheEx.files1 [.read "a/m.yaml" false, .files CacheEx.files2]).fs (funcFile "a/m.yaml"))).toOption
      = some ("model", none) := by decide +kernel
    rw [h] at this
    simp [Except.toOption] at this

/-- **C42** refuted: a copy of a model file in another directory gets the path of the first one. -/
theorem C42_path_refuted : ∃ (parse : String → Option String → Except PyErr (String × Option String)) (dirname : String → String)
    (fs : String → Option String) (evs : List (Ev (String × Option String))) (mfile : String) (r : Nat) (m : PModel (String × Option String)),
    (Cache.read parse dirname (run parse dirname fs evs) mfile false).2.toOption = some r ∧
    (Cache.read parse dirname (run parse dirname fs evs) mfile false).1.heap[r]? = some m ∧ m.path ≠ dirname mfile := by
  refine ⟨CacheEx.parseTxt, CacheEx.dirOf, CacheEx.files3, [.read "a/m.yaml" false], "b/m.yaml", 2,
    ⟨("model", none), "model", none, "a"⟩, ?_, ?_, ?_⟩
  · decide +kernel
  · decide +kernel
  · decide

/-! ## C43 -/

section
variable {F A Y R : Type} [DecidableEq F] [DecidableEq Y]

theorem calls_sound (key : A → Option Y) (fn : F → A → Except PyErr R) (l : List (F × A)) :
    ∀ e ∈ calls key fn l, ∃ x, key x = some e.1.2 ∧ fn e.1.1 x = .ok e.2 := by
  unfold calls
  have : ∀ (l : List (F × A)) (sol : List ((F × Y) × R)), (∀ e ∈ sol, ∃ x, key x = some e.1.2 ∧ fn e.1.1 x = .ok e.2) →
      ∀ e ∈ l.foldl (fun sol fx => (call key fn sol fx.1 fx.2).1) sol, ∃ x, key x = some e.1.2 ∧ fn e.1.1 x = .ok e.2 := by
    intro l
    induction l with
    | nil => intro sol h; exact h
    | cons fx r ih =>
      intro sol h
      refine ih _ ?_
      show ∀ e ∈ (call key fn sol fx.1 fx.2).1, _
      unfold call
      cases hk : key fx.2 with
      | none => exact h
      | some y =>
        dsimp only
        split
        · exact h
        · split
          · exact h
          · rename_i res hres
            intro e he
            rcases List.mem_cons.1 he with rfl | he
            · exact ⟨fx.2, hk, hres⟩
            · exact h e he
  exact this l [] (by simp)

/-- **C43** (for functions that do not tell apart arguments that Python considers equal, and hashable arguments): after any sequence of calls, a
call of a wrapped function returns or raises what the function does. -/
theorem C43_transparent_partial (key : A → Option Y) (fn : F → A → Except PyErr R)
    (hfn : ∀ f x x', key x = key x' → fn f x = fn f x') (l : List (F × A)) (f : F) (x : A) (hx : key x ≠ none) :
    (call key fn (calls key fn l) f x).2 = fn f x := by
  unfold call
  cases hk : key x with
  | none => exact absurd hk hx
  | some y =>
    dsimp only
    cases hf : (calls key fn l).find? (fun e => decide (e.1 = (f, y))) with
    | none =>
      dsimp only
      cases fn f x <;> rfl
    | some e =>
      dsimp only
      have h1 := List.find?_some hf
      simp only [decide_eq_true_eq] at h1
      obtain ⟨x', hx', hr⟩ := calls_sound key fn l e (List.mem_of_find?_eq_some hf)
      rw [h1] at hx' hr
      rw [← hr]
      exact hfn f x' x (hx'.trans hk.symm)

/-- **C43**: a function is only evaluated once for the same arguments (if it does not raise). -/
theorem C43_cached (key : A → Option Y) (fn fn' : F → A → Except PyErr R) (l : List (F × A)) (f : F) (x : A) (r : R)
    (h : (call key fn (calls key fn l) f x).2 = .ok r) :
    (call key fn' (call key fn (calls key fn l) f x).1 f x).2 = .ok r := by
  unfold call at h ⊢
  cases hk : key x with
  | none => rw [hk] at h; cases h
  | some y =>
    rw [hk] at h
    dsimp only at h ⊢
    cases hf : (calls key fn l).find? (fun e => decide (e.1 = (f, y))) with
    | none =>
      rw [hf] at h
      dsimp only at h ⊢
      cases hr : fn f x with
      | error e => rw [hr] at h; cases h
      | ok r' =>
        rw [hr] at h
        simp only [Except.ok.injEq] at h
        subst h
        simp
    | some e =>
      rw [hf] at h
      dsimp only at h ⊢
      rw [hf]
      exact h

end

/-- A hashable argument and functions as in C43: integers and a function with an exception. -/
example : (∀ (f : Unit) (x x' : Int), some x = some x' → (fun (_ : Unit) (x : Int) => if x = 0 then (.error .valueError : Except PyErr Int) else .ok (2 * x)) f x =
    (fun (_ : Unit) (x : Int) => if x = 0 then (.error .valueError : Except PyErr Int) else .ok (2 * x)) f x') := by
  intro f x x' h; injection h with h; subst h; rfl

/-- Numbers as Python has them, as far as needed: zero with a sign, and arrays. -/
inductive PyNum
  | zero (neg : Bool)
  | array
  deriving DecidableEq

/-- **C43** refuted: `0.0 == -0.0`, so a function like `copysign(1, x)` gets the wrong value from the cache; and a call with an array raises. -/
theorem C43_transparent_refuted : ∃ (key : PyNum → Option Int) (fn : Unit → PyNum → Except PyErr Int),
    key (.zero true) = key (.zero false) ∧
    (call key fn (calls key fn [((), .zero false)]) () (.zero true)).2 ≠ fn () (.zero true) ∧
    (call key fn (calls key fn []) () .array).2 ≠ fn () .array := by
  refine ⟨fun x => match x with | .zero _ => some 0 | .array => none, fun _ x => match x with | .zero true => .ok (-1) | .zero false => .ok 1 | .array => .ok 0,
    rfl, ?_, ?_⟩
  · intro h; simp [calls, call] at h
  · intro h; simp [calls, call] at h

end Pydsge
