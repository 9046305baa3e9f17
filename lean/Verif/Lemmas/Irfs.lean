import Verif.Lemmas.Constraint

/-! # Lemmas on `irfs` -/

set_option autoImplicit false
set_option linter.unusedSectionVars false
set_option linter.unusedSimpArgs false

namespace Pydsge.Tools

open Matrix Pydsge.Engine Pydsge.GenSys Pydsge.Spec

section
variable {z ε p o K : Type} [Fintype z] [Fintype ε] [Fintype p] [Fintype o] [DecidableEq z] [DecidableEq ε] [DecidableEq p]
  [Field K] [LinearOrder K]

/-- The loop states of a successful run are connected by single steps. -/
theorem irfRun_steps {m : Model z ε p o K} {a : IrfArgs z ε p K} : ∀ {n t0 : Nat} {st : IrfState z p K} {xs : List (IrfState z p K)},
    irfRun m a t0 st n = .ok xs → xs.length = n ∧ ∀ i s s', (st :: xs)[i]? = some s → xs[i]? = some s' →
      irfStep m a s (t0 + i) = .ok s' := by
  intro n
  induction n with
  | zero =>
    intro t0 st xs h
    simp only [irfRun, Except.ok.injEq] at h
    subst h
    exact ⟨rfl, fun i s s' _ h => by simp at h⟩
  | succ n ih =>
    intro t0 st xs h
    unfold irfRun at h
    cases hs : irfStep m a st t0 with
    | error e => rw [hs] at h; cases h
    | ok st' =>
      rw [hs] at h
      cases hr : irfRun m a (t0 + 1) st' n with
      | error e => simp only [hr] at h; cases h
      | ok rest =>
        simp only [hr, Except.ok.injEq] at h
        subst h
        obtain ⟨h1, h2⟩ := ih hr
        refine ⟨by simp [h1], ?_⟩
        intro i s s' ha hb
        cases i with
        | zero =>
          simp only [List.getElem?_cons_zero, Option.some.injEq] at ha hb
          subst ha hb
          exact hs
        | succ i =>
          simp only [List.getElem?_cons_succ] at ha hb
          rw [← h2 i s s' ha hb]
          congr 1; omega

/-- If every step from a reachable state succeeds, so does the run. -/
theorem irfRun_exists {m : Model z ε p o K} {a : IrfArgs z ε p K} (P : Nat → IrfState z p K → Prop)
    (hstep : ∀ t s, P t s → ∃ s', irfStep m a s t = .ok s' ∧ P (t + 1) s') : ∀ (n t0 : Nat) (st : IrfState z p K), P t0 st →
    ∃ xs, irfRun m a t0 st n = .ok xs := by
  intro n
  induction n with
  | zero => intro t0 st _; exact ⟨[], rfl⟩
  | succ n ih =>
    intro t0 st h0
    obtain ⟨s', h1, h2⟩ := hstep t0 st h0
    obtain ⟨xs, h3⟩ := ih (t0 + 1) s' h2
    exact ⟨s' :: xs, by simp only [irfRun, h1, h3]⟩

theorem tFunc_bool {m : Model z ε p o K} (st : p ⊕ z → K) (e : ε → K) (b lin : Bool) :
    tFunc m st e (.bool b) lin = tFunc m st e .none lin := by
  cases lin <;> rfl

theorem tFunc_linear {m : Model z ε p o K} (st : p ⊕ z → K) (e : ε → K) (sk : SetK) :
    tFunc m st e sk true = tFunc m st e (.pair 0 0) false := rfl

theorem anyNonzero_false {v : ε → K} : anyNonzero v = false ↔ v = 0 := by
  unfold anyNonzero
  rw [decide_eq_false_iff_not]
  push Not
  exact ⟨fun h => funext h, fun h e => congrFun h e⟩

theorem continued_eq (l k : Nat) : continued l k = .pair ((elapsed l k 1).1 : Int) ((elapsed l k 1).2 : Int) := by
  unfold continued elapsed
  by_cases h : l = 0
  · subst h
    simp only [ne_eq, not_true_eq_false, if_false, Nat.zero_add]
    rw [if_neg (by omega)]
    simp only [SetK.pair.injEq]
    constructor
    · rfl
    · omega
  · rw [if_pos h, if_pos (by omega)]
    simp only [SetK.pair.injEq, and_true]
    omega

end
end Pydsge.Tools
