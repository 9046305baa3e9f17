import Verif.Props.Alias

/-!
# C154: what the arrays returned by `get_par` and `set_par` contain
-/

set_option autoImplicit false
set_option linter.unusedSectionVars false
set_option linter.unusedSimpArgs false

namespace Pydsge

open Params Alias

namespace Spec
variable {K QQ : Type}

/-- The numbers of a result, row by row.  (A covariance matrix is not a set of parameters.) -/
inductive NumbersOf : ParVal K QQ → List K → Prop
  | scalar (x : K) : NumbersOf (.scalar x) [x]
  | vec (v : List K) : NumbersOf (.vec v) v
  | estimated (v : List K) : NumbersOf (.cand (.vec v)) v
  | axis (v : List K) : NumbersOf (.cand (.wrapped v)) v
  | sampleNil : NumbersOf (.mat []) []
  | sampleCons (r : List K) (m : List (List K)) (l : List K) (h : NumbersOf (.mat m) l) : NumbersOf (.mat (r :: m)) (r ++ l)
  | estimatedSample (m : List (List K)) (l : List K) (h : NumbersOf (.mat m) l) : NumbersOf (.cand (.mat m)) l

end Spec

section
variable {K PP VV HX LS TT QQ : Type} [Field K] [LinearOrder K]
variable {S : Solver K PP VV HX LS TT QQ} {D : Decl K} {dr : Draws K} {sq : QQ → QQ}

theorem contents_numbersOf {v : ParVal K QQ} {l : List K} (h : Spec.NumbersOf v l) : contents v = l := by
  have hm : ∀ {w : ParVal K QQ} {l : List K}, Spec.NumbersOf w l → ∀ m, w = .mat m → m.flatten = l := by
    intro w l h
    induction h with
    | sampleNil => rintro m ⟨⟩; rfl
    | sampleCons r m' l' _ ih => rintro m ⟨⟩; simp [ih m' rfl]
    | _ => intro m hm; cases hm
  cases h with
  | estimatedSample m l h => exact hm h m rfl
  | sampleNil => rfl
  | sampleCons r m l h => simp [contents, hm h m rfl]
  | _ => rfl

theorem nums_some (l : List K) : nums (l.map some) = l := by simp [nums, List.filterMap_map]

theorem writeBack_next (s : State K PP VV HX LS TT QQ) (ob : Obj K PP VV HX LS TT QQ) : (writeBack s ob).mem.next = s.mem.next := by
  unfold writeBack
  rcases s.init with _ | a <;> rcases ob.initValue with _ | v <;> rfl

/-- **C154** (contents).  `set_par` returns a new array that holds the numbers of its result; passing it on means passing these numbers. -/
theorem C154_set_contents (s s' : State K PP VV HX LS TT QQ) (g : GenArgs) (arg : Arg) (x : Option K) (v : ParVal K QQ) (a : Nat) (l : List K)
    (h : setParA S D dr g sq s arg x = (s', .ok (v, a))) (hl : Spec.NumbersOf v l) :
    s.mem.next ≤ a ∧ a ∈ s'.owned ∧ s'.mem.arr a = l.map some ∧ (Arg.arr a).read s'.mem = .vec l := by
  unfold setParA at h
  rcases hg : setPar S D dr g sq s.view (arg.read s.mem) x with ⟨ob, e | w⟩
  · simp only [hg] at h; cases (Prod.mk.inj h).2
  · simp only [hg, Mem.alloc, Prod.mk.injEq, Except.ok.injEq] at h
    obtain ⟨rfl, rfl, rfl⟩ := h
    refine ⟨by rw [writeBack_next], by simp, ?_, ?_⟩
    · simp [contents_numbersOf hl]
    · simp [Arg.read, contents_numbersOf hl, nums_some]

/-- **C154** (contents).  `get_par` returns an array that is in use already, or a new one that holds the numbers of the result. -/
theorem C154_get_contents (s s' : State K PP VV HX LS TT QQ) (g : GenArgs) (arg : Arg) (npar : Option (List K)) (full : Bool) (n : Nat)
    (v : ParVal K QQ) (a : Nat) (l : List K) (h : getParA S D dr g s arg npar full n = (s', .ok (v, a))) (hl : Spec.NumbersOf v l) :
    (full = false ∧ n ≤ 1 ∧ (s.mode = some a ∨ s.init = some a ∨ arg = .arr a)) ∨
      (s.mem.next ≤ a ∧ a ∈ s'.owned ∧ s'.mem.arr a = l.map some ∧ (Arg.arr a).read s'.mem = .vec l) := by
  unfold getParA at h
  rcases hg : getPar S D dr g s.view (arg.read s.mem) npar full n with ⟨ob, e | w⟩
  · simp only [hg] at h; cases (Prod.mk.inj h).2
  · simp only [hg] at h
    obtain ⟨ok, h⟩ : ∃ ok, (match returned D s ok arg full n with
        | some a => ({ writeBack s ob with owned := a :: (writeBack s ob).owned }, .ok (w, a))
        | none => ({ writeBack s ob with
            mem := ((writeBack s ob).mem.alloc ((contents w).map some)).2
            owned := (writeBack s ob).mem.next :: (writeBack s ob).owned }, .ok (w, (writeBack s ob).mem.next))) =
        ((s', .ok (v, a)) : State K PP VV HX LS TT QQ × Except PyErr (ParVal K QQ × Nat)) := ⟨_, h⟩
    cases hr : returned D s ok arg full n with
    | none =>
      simp only [hr, Mem.alloc, Prod.mk.injEq, Except.ok.injEq] at h
      obtain ⟨rfl, rfl, rfl⟩ := h
      refine Or.inr ⟨by rw [writeBack_next], by simp, ?_, ?_⟩
      · simp [contents_numbersOf hl]
      · simp [Arg.read, contents_numbersOf hl, nums_some]
    | some b =>
      simp only [hr, Prod.mk.injEq, Except.ok.injEq] at h
      obtain ⟨-, -, rfl⟩ := h
      left
      unfold returned at hr
      by_cases hf : full = true
      · simp [hf] at hr
      · by_cases hn : n > 1
        · rw [if_neg hf] at hr
          rcases arg with _ | name | c
          · simp [hn] at hr
          · simp only [if_pos hn] at hr
            by_cases h1 : name ∈ D.names ∨ name ∈ D.pfNames ∨ name = "cov_mat"
            · rw [if_pos h1] at hr; cases hr
            · rw [if_neg h1] at hr; cases hr
          · simp [hn] at hr
        · refine ⟨by simpa using hf, by omega, ?_⟩
          have hb : s.best = some b → s.mode = some b ∨ s.init = some b := by
            unfold State.best
            rcases s.mode with _ | c
            · exact fun h => Or.inr h
            · exact fun h => Or.inl h
          rw [if_neg hf] at hr
          rcases arg with _ | name | c
          · simp only [if_neg hn] at hr
            by_cases ho : ok = true
            · rw [if_pos ho] at hr; cases hr
            · rw [if_neg ho] at hr
              exact (hb hr).imp_right Or.inl
          · simp only [if_neg hn] at hr
            by_cases h1 : name ∈ D.names ∨ name ∈ D.pfNames ∨ name = "cov_mat"
            · rw [if_pos h1] at hr; cases hr
            · rw [if_neg h1] at hr
              by_cases h2 : name = "best"
              · rw [if_pos h2] at hr; exact (hb hr).imp_right Or.inl
              · rw [if_neg h2] at hr
                by_cases h3 : isMode name
                · rw [if_pos h3] at hr; exact Or.inl hr
                · rw [if_neg h3] at hr
                  by_cases h4 : name = "init"
                  · rw [if_pos h4] at hr; exact Or.inr (Or.inl hr)
                  · rw [if_neg h4] at hr; cases hr
          · simp only [if_neg hn] at hr
            right; right
            by_cases h1 : (nums (s.mem.arr c)).length = D.parFix.length
            · rw [if_pos h1] at hr
              rcases hp : D.prior with _ | p
              · simp only [hp, Option.some.injEq] at hr; rw [hr]
              · simp only [hp] at hr; cases hr
            · rw [if_neg h1, Option.some.injEq] at hr; rw [hr]

/-- Not vacuous, with a result of each kind: all parameters, the estimated ones, a single one, and, for a model without a prior, all of them with an
additional axis. -/
theorem C154_contents_hypotheses_met :
    let g : GenArgs := ⟨none, none, false⟩
    let D' : Decl Rat := { ParEx.decl with prior := none }
    (∃ s', getParA ParEx.solver ParEx.decl ParEx.draws g AliasEx .none none true 1 = (s', .ok (.vec [0, 1/2, 1/4], 2)) ∧
      s'.mem.arr 2 = [some 0, some (1/2), some (1/4)]) ∧
    (∃ s', getParA ParEx.solver ParEx.decl ParEx.draws g AliasEx .none none false 1 = (s', .ok (.cand (.vec [1/4, 1/2]), 2)) ∧
      s'.mem.arr 2 = [some (1/4), some (1/2)]) ∧
    (∃ s', getParA ParEx.solver ParEx.decl ParEx.draws g AliasEx (.str "b") none true 1 = (s', .ok (.scalar (1/2), 2)) ∧
      s'.mem.arr 2 = [some (1/2)]) ∧
    (∃ s', getParA ParEx.solver D' ParEx.draws g AliasEx .none none false 1 = (s', .ok (.cand (.wrapped [0, 1/2, 1/4]), 2)) ∧
      s'.mem.arr 2 = [some 0, some (1/2), some (1/4)]) ∧
    (∃ s', setParA ParEx.solver ParEx.decl ParEx.draws g id AliasEx (.str "b") (some (1/3)) = (s', .ok (.vec [0, 1/3, 1/4], 2)) ∧
      s'.mem.arr 2 = [some 0, some (1/3), some (1/4)]) := by
  intro g D'
  refine ⟨⟨_, Prod.ext rfl ?_, ?_⟩, ⟨_, Prod.ext rfl ?_, ?_⟩, ⟨_, Prod.ext rfl ?_, ?_⟩, ⟨_, Prod.ext rfl ?_, ?_⟩, ⟨_, Prod.ext rfl ?_, ?_⟩⟩
  all_goals decide +kernel

end
end Pydsge
