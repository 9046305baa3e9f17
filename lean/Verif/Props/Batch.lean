import Verif.Model.Batch
import Mathlib.Data.List.Perm.Basic
import Mathlib.Data.List.Range

/-!
# C17: `irfs` for several parameter sets
-/

set_option autoImplicit false
set_option linter.unusedSectionVars false

namespace Pydsge

open Pydsge.Batch

variable {σ P R : Type}

/-- No object lives at or above the next free address. -/
def HeapOK (h : Heap σ) : Prop := ∀ a, h.next ≤ a → h.cell a = none

/-- The first exception of a list of results, or all values. -/
def allOK : List (Except PyErr (Option R)) → Except PyErr (List (Option R))
  | [] => .ok []
  | .error e :: _ => .error e
  | .ok r :: rs =>
    match allOK rs with
    | .error e => .error e
    | .ok xs => .ok (r :: xs)

/-- A run works on a new object: no object that existed before is touched, and the result does not depend on the heap. -/
theorem runner_frame (M : Methods σ P R) (pick : σ) (h h2 : Heap σ) (par : Option P) :
    (∀ a < h.next, (runner M pick h par).1.cell a = h.cell a) ∧ h.next ≤ (runner M pick h par).1.next ∧
    (runner M pick h par).2 = (runner M pick h2 par).2 := by
  have upd : ∀ (f : Nat → Option σ) (x : Option σ) (a : Nat), a < h.next → Function.update f h.next x a = f a :=
    fun f x a ha => Function.update_of_ne (Nat.ne_of_lt ha) _ _
  cases par with
  | none =>
    simp only [runner, loads]
    rcases hr : M.run pick with ⟨x', e | r⟩ <;> simp only [hr, Heap.put] <;>
      exact ⟨fun a ha => by rw [upd _ _ _ ha, upd _ _ _ ha], Nat.le_succ _, by first | rfl | trivial⟩
  | some p =>
    by_cases hg : M.given p = true
    · simp only [runner, loads, hg, if_true]
      rcases hs : M.setPar p pick with ⟨x, _ | e⟩
      · simp only [hs]
        rcases hr : M.run x with ⟨x', e | r⟩ <;> simp only [hr, Heap.put] <;>
          exact ⟨fun a ha => by rw [upd _ _ _ ha, upd _ _ _ ha, upd _ _ _ ha], Nat.le_succ _, by first | rfl | trivial⟩
      · cases e <;> simp only [hs, Heap.put] <;>
          exact ⟨fun a ha => by rw [upd _ _ _ ha, upd _ _ _ ha], Nat.le_succ _, by first | rfl | trivial⟩
    · simp only [runner, loads, hg, Bool.false_eq_true, if_false]
      rcases hr : M.run pick with ⟨x', e | r⟩ <;> simp only [hr, Heap.put] <;>
        exact ⟨fun a ha => by rw [upd _ _ _ ha, upd _ _ _ ha], Nat.le_succ _, by first | rfl | trivial⟩

theorem runAll_cons (M : Methods σ P R) (pick : σ) (pars : Nat → Option P) (i : Nat) (is : List Nat) (h : Heap σ)
    (res : Nat → Option (Except PyErr (Option R))) : runAll M pick pars (i :: is) h res =
      runAll M pick pars is (runner M pick h (pars i)).1 (Function.update res i (some (runner M pick h (pars i)).2)) := rfl

theorem runAll_frame (M : Methods σ P R) (pick : σ) (pars : Nat → Option P) (h0 : Heap σ) :
    ∀ (is : List Nat) (h : Heap σ) (res : Nat → Option (Except PyErr (Option R))),
      (∀ a < h.next, (runAll M pick pars is h res).1.cell a = h.cell a) ∧
      (∀ i, (runAll M pick pars is h res).2 i = if i ∈ is then some (runner M pick h0 (pars i)).2 else res i) := by
  intro is
  induction is with
  | nil => intro h res; exact ⟨fun _ _ => rfl, fun i => by simp [runAll]⟩
  | cons j is ih =>
    intro h res
    obtain ⟨f1, f2, f3⟩ := runner_frame M pick h h0 (pars j)
    obtain ⟨g1, g2⟩ := ih (runner M pick h (pars j)).1 (Function.update res j (some (runner M pick h (pars j)).2))
    constructor
    · intro a ha
      rw [runAll_cons, g1 a (Nat.lt_of_lt_of_le ha f2), f1 a ha]
    · intro i
      rw [runAll_cons, g2 i]
      by_cases hi : i ∈ is
      · simp [hi]
      · by_cases hij : i = j
        · subst hij
          simp [hi, f3]
        · simp [hi, hij, Function.update_of_ne hij]

theorem collect_all (res : Nat → Option (Except PyErr (Option R))) (f : Nat → Except PyErr (Option R)) :
    ∀ is : List Nat, (∀ i ∈ is, res i = some (f i)) → collect res is = allOK (is.map f) := by
  intro is
  induction is with
  | nil => intro _; rfl
  | cons i is ih =>
    intro h
    rw [List.map_cons]
    unfold collect
    rw [h i (by simp), ih (fun j hj => h j (by simp [hj]))]
    cases f i with
    | error e => rfl
    | ok r => rfl

/-- What a parameter set alone gives, for an object with contents `x`: the simulation on the contents that `set_par` makes of `x` (on `x`
itself, if the parameter set counts as not given); no result if `set_par` raises `ValueError`; any other exception is raised. -/
structure Spec.Alone (M : Methods σ P R) (x : σ) (p : P) (res : Except PyErr (Option R)) : Prop where
  notGiven : M.given p = false → (∀ r, (M.run x).2 = .ok r → res = .ok (some r)) ∧ ∀ e, (M.run x).2 = .error e → res = .error e
  given : ∀ y, M.given p = true → M.setPar p x = (y, none) →
    (∀ r, (M.run y).2 = .ok r → res = .ok (some r)) ∧ ∀ e, (M.run y).2 = .error e → res = .error e
  fails : ∀ y e, M.given p = true → M.setPar p x = (y, some e) → res = if e = .valueError then .ok none else .error e

theorem runner_alone (M : Methods σ P R) (x : σ) (h : Heap σ) (p : P) : Spec.Alone M x p (runner M x h (some p)).2 := by
  constructor
  · intro hg
    simp only [runner, hg, Bool.false_eq_true, if_false]
    rcases hr : M.run x with ⟨x', e | r⟩ <;> simp [loads]
  · intro y hg hy
    simp only [runner, hg, if_true, hy]
    rcases hr : M.run y with ⟨x', e | r⟩ <;> simp [loads]
  · intro y e hg hy
    simp only [runner, hg, if_true, hy]
    cases e <;> simp

/-- **C17**: for every object, every heap and every order in which the runs are executed, `irfs(pars=...)` leaves the model
object (and every other object) as it was, also if it raises; and its results are those of the single parameter sets, in order. -/
theorem C17_irfs_many (M : Methods σ P R) {self : Nat} {h : Heap σ} (hok : HeapOK h) {x0 : σ} (hp : h.cell self = some x0)
    (pars : List P) {sched : List Nat} (hs : sched.Perm (List.range pars.length)) :
    (∀ a x, h.cell a = some x → (irfsMany M self h pars sched).1.cell a = some x) ∧
    ∃ alone : P → Except PyErr (Option R), (∀ p, Spec.Alone M x0 p (alone p)) ∧
      (∀ p h', HeapOK h' → h'.cell self = h.cell self →
        (irfsMany M self h' [p] [0]).2 = allOK [alone p]) ∧
      (irfsMany M self h pars sched).2 = allOK (pars.map alone) := by
  obtain ⟨g1, g2⟩ := runAll_frame M x0 (fun i => pars[i]?) h sched h (fun _ => none)
  constructor
  · intro a x ha
    have hlt : a < h.next := by
      by_contra hc
      rw [hok a (Nat.le_of_not_lt hc)] at ha
      cases ha
    unfold irfsMany
    rw [hp]
    simp only
    rw [g1 a hlt, ha]
  · refine ⟨fun p => (runner M x0 h (some p)).2, fun p => runner_alone M x0 h p, ?_, ?_⟩
    · intro p h' _ hh
      unfold irfsMany
      rw [hh, hp]
      simp only
      obtain ⟨k1, k2⟩ := runAll_frame M x0 (fun i => [p][i]?) h [0] h' (fun _ => none)
      exact collect_all _ (fun i => (runner M x0 h ([p][i]?)).2) [0] (fun i hi => by
        rw [k2 i, if_pos hi])
    · unfold irfsMany
      rw [hp]
      simp only
      rw [collect_all _ (fun i => (runner M x0 h (pars[i]?)).2) (List.range pars.length) (fun i hi => by
        rw [g2 i, if_pos (hs.mem_iff.2 hi)])]
      congr 1
      apply List.ext_getElem?
      intro i
      simp only [List.getElem?_map]
      by_cases hi : i < pars.length
      · rw [List.getElem?_range hi, List.getElem?_eq_getElem hi]
        simp [List.getElem?_eq_getElem hi]
      · rw [List.getElem?_eq_none (by simpa using hi), List.getElem?_eq_none (by simpa using hi)]
        rfl

theorem allOK_perm {a b : List (Except PyErr (Option R))} (h : a.Perm b) {xs : List (Option R)} (ha : allOK a = .ok xs) :
    ∃ ys, allOK b = .ok ys ∧ xs.Perm ys := by
  induction h generalizing xs with
  | nil => exact ⟨xs, ha, .refl _⟩
  | @cons x l1 l2 _ ih =>
    cases x with
    | error e => cases ha
    | ok r =>
      cases h1 : allOK l1 with
      | error e => simp only [allOK, h1] at ha; cases ha
      | ok zs =>
        simp only [allOK, h1, Except.ok.injEq] at ha
        obtain ⟨ys, h2, h3⟩ := ih h1
        exact ⟨r :: ys, by simp only [allOK, h2], by rw [← ha]; exact h3.cons r⟩
  | @swap x y l =>
    cases x with
    | error e => cases y <;> simp [allOK] at ha
    | ok r =>
      cases y with
      | error e => cases ha
      | ok r' =>
        cases h1 : allOK l with
        | error e => simp only [allOK, h1] at ha; cases ha
        | ok zs =>
          simp only [allOK, h1, Except.ok.injEq] at ha
          exact ⟨r :: r' :: zs, by simp only [allOK, h1], by rw [← ha]; exact .swap _ _ _⟩
  | trans _ _ ih1 ih2 =>
    obtain ⟨ys, h1, h2⟩ := ih1 ha
    obtain ⟨zs, h3, h4⟩ := ih2 h1
    exact ⟨zs, h3, h2.trans h4⟩

/-- **C17**, order: permuting the parameter sets permutes the results. -/
theorem C17_irfs_permuted (M : Methods σ P R) {self : Nat} {h : Heap σ} (hok : HeapOK h) (hself : (h.cell self).isSome)
    {pars pars' : List P} (hp : pars.Perm pars') {sched sched' : List Nat} (hs : sched.Perm (List.range pars.length))
    (hs' : sched'.Perm (List.range pars'.length)) {xs : List (Option R)}
    (hx : (irfsMany M self h pars sched).2 = .ok xs) :
    ∃ ys, (irfsMany M self h pars' sched').2 = .ok ys ∧ xs.Perm ys := by
  obtain ⟨pick, hpick⟩ := Option.isSome_iff_exists.1 hself
  obtain ⟨_, al, _, a1, a2⟩ := C17_irfs_many M hok hpick pars hs
  obtain ⟨_, al', _, b1, b2⟩ := C17_irfs_many M hok hpick pars' hs'
  have hal : ∀ p, al p = al' p := by
    intro p
    have h1 := a1 p h hok rfl
    rw [b1 p h hok rfl] at h1
    cases h2 : al p with
    | error e => cases h3 : al' p with
      | error e' => simp_all [allOK]
      | ok r => simp_all [allOK]
    | ok r => cases h3 : al' p with
      | error e' => simp_all [allOK]
      | ok r => simp_all [allOK]
  rw [a2] at hx
  rw [b2, ← funext hal]
  exact allOK_perm (hp.map al) hx

/-- An object that holds a number; `set_par` stores the parameter first and fails with `ValueError` for 0. -/
def exMethods : Methods Nat Nat Nat where
  given := fun _ => true
  setPar := fun p _ => if p = 0 then (p, some .valueError) else (p, none)
  run := fun x => (x + 1, .ok (10 * x))

/-- Non-vacuity: two runs and a failing one, executed in another order; the object keeps its contents. -/
example : let h : Heap Nat := ⟨fun a => if a = 0 then some 7 else none, 1⟩
    HeapOK h ∧ (h.cell 0).isSome ∧ (irfsMany exMethods 0 h [3, 0, 4] [2, 0, 1]).2 = .ok [some 30, none, some 40] ∧
    (irfsMany exMethods 0 h [3, 0, 4] [2, 0, 1]).1.cell 0 = some 7 := by
  refine ⟨fun a ha => ?_, rfl, rfl, rfl⟩
  have : a ≠ 0 := by have : 1 ≤ a := ha; omega
  simp [this]

end Pydsge
