import Verif.Model.Pack

/-!
# C139: the durations that `irfs` and `simulate` return
-/

set_option autoImplicit false
set_option linter.unusedSectionVars false

namespace Pydsge

open Pack

variable {X β φ : Type}

/-- **C139 (partial).** `X, (L, K), flag = irfs(...)` with one set of parameters gives the durations of this run. -/
theorem C139_one_partial (r : Run X β φ) : ∃ lk, irfsOne r = (r.X, lk, r.flag) ∧ unpack2 lk = .ok (r.L, r.K) := ⟨_, rfl, rfl⟩

/-- **C139 (partial).** With several sets, the durations of set number `i` are the rows `i` and `n + i`, where `n` is the number of sets. -/
theorem C139_rows_partial (rs : List (Run X β φ)) (i : Nat) (r : Run X β φ) (hi : rs[i]? = some r) :
    (irfsMany rs).1[i]? = some r.X ∧ (irfsMany rs).2.1[i]? = some r.L ∧ (irfsMany rs).2.1[rs.length + i]? = some r.K ∧
      (irfsMany rs).2.2[i]? = some r.flag ∧ (irfsMany rs).2.1.length = 2 * rs.length := by
  have hlt : i < rs.length := (List.getElem?_eq_some_iff.1 hi).1
  refine ⟨by simp [irfsMany, hi], ?_, ?_, by simp [irfsMany, hi], ?_⟩
  · simp only [irfsMany, vstack]
    rw [List.getElem?_append_left (by simpa using hlt)]
    simp [hi]
  · simp only [irfsMany, vstack]
    rw [List.getElem?_append_right (by simp)]
    simp [hi]
  · simp only [irfsMany, vstack, List.length_append, List.length_map]
    omega

/-- **C139 (negation).** With two or more sets the documented pair of durations cannot be taken apart, and the second row, which should
be `k`, is the `l` of the second set. -/
theorem C139_several_refuted (r₁ r₂ : Run X β φ) (rs : List (Run X β φ)) :
    unpack2 (irfsMany (r₁ :: r₂ :: rs)).2.1 = .error .valueError ∧ (irfsMany (r₁ :: r₂ :: rs)).2.1[1]? = some r₂.L := by
  refine ⟨?_, rfl⟩
  simp only [irfsMany, vstack, List.map_cons, List.cons_append]
  cases rs <;> rfl

/-- **C139.** `simulate` returns `l` and `k` of every sample, in the order of the samples. -/
theorem C139_simulate (rs : List (Run X β φ)) : simReturn rs = .ok (rs.map Run.X, (rs.map Run.L, rs.map Run.K), rs.map Run.flag) := by
  have h : ∀ (i : Nat) (f : Run X β φ → List β), (∀ r : Run X β φ, (simRun r).2.1[i]? = some (f r)) →
      rowOfEach i ((rs.map simRun).map fun r => r.2.1) = .ok (rs.map f) := by
    intro i f hf
    unfold rowOfEach
    induction rs with
    | nil => rfl
    | cons r rs ih =>
      simp only [List.map_cons, List.mapM_cons]
      rw [ih, hf]
      rfl
  unfold simReturn
  simp only [h 0 Run.L (fun _ => rfl), h 1 Run.K (fun _ => rfl)]
  simp [simRun]

example : irfsMany [⟨0, [1, 0], [2, 1], false⟩, ⟨1, [3, 2], [4, 4], true⟩] =
    (([0, 1] : List Nat), ([[1, 0], [3, 2], [2, 1], [4, 4]] : List (List Nat)), [false, true]) := rfl

end Pydsge
