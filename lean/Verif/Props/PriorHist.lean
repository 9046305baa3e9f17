import Verif.Model.PriorHist

/-!
# C169: one prior
-/

set_option autoImplicit false
set_option linter.unusedSectionVars false
set_option linter.unusedSimpArgs false

namespace Pydsge

open Pydsge.PriorHist

namespace Spec

variable {P : Type}

/-- The prior after the changes of the user; nothing else changes it. -/
def edited (p : P) : List (Op P) → P
  | [] => p
  | .edit f :: ops => edited (f p) ops
  | _ :: ops => edited p ops

def IsEdit : Op P → Prop
  | .edit _ => True
  | _ => False

/-- All changes come first, and the model is not saved and loaded after a change. -/
def Orderly (ops : List (Op P)) : Prop := ∃ a c, ops = a ++ c ∧ (∀ op ∈ a, IsEdit op) ∧ (∀ op ∈ c, ¬ IsEdit op) ∧ (a = [] ∨ .reload ∉ c)

end Spec

variable {P F : Type} {G : P → Except PyErr F}

/-- What is stored belongs to the current prior. -/
structure Fresh (G : P → Except PyErr F) (s : St P F) : Prop where
  frozen : ∀ f, s.frozen = some f → G s.prior = .ok f
  fns : ∀ f, s.fns = some f → G s.prior = .ok f

theorem prep_prior (r : Run) (s : St P F) : (prep G r s).1.prior = s.prior ∧ (prep G r s).1.file = s.file := by
  unfold prep
  cases r.early <;> simp only
  · cases G s.prior <;> exact ⟨rfl, rfl⟩
  · exact ⟨trivial, trivial⟩

theorem prep_fresh (r : Run) {s : St P F} (h : Fresh G s) : Fresh G (prep G r s).1 := by
  unfold prep
  cases r.early <;> simp only
  · cases hG : G s.prior <;> simp only
    · exact ⟨h.frozen, h.fns⟩
    · exact ⟨fun f hf => by cases hf; exact hG, fun f hf => by cases hf; exact hG⟩
  · exact h

theorem step_prior (s : St P F) (op : Op P) (h : ¬ Spec.IsEdit op) (hr : op = .reload → s.prior = s.file) :
    (step G s op).prior = s.prior ∧ (step G s op).file = s.file ∧ (Fresh G s → Fresh G (step G s op)) := by
  cases op with
  | edit f => exact absurd trivial h
  | prep r => exact ⟨(prep_prior r s).1, (prep_prior r s).2, prep_fresh r⟩
  | ensure r =>
    simp only [step, ensure]
    split
    · exact ⟨rfl, rfl, id⟩
    · exact ⟨(prep_prior r s).1, (prep_prior r s).2, prep_fresh r⟩
  | chain r =>
    simp only [step, chain]
    split
    · exact ⟨rfl, rfl, id⟩
    · exact ⟨(prep_prior r s).1, (prep_prior r s).2, prep_fresh r⟩
  | reload =>
    have := hr rfl
    simp only [step, reload]
    exact ⟨this.symm, trivial, fun hf => ⟨fun f h' => by rw [← this]; exact hf.frozen f h', fun f h' => by cases h'⟩⟩

theorem edited_append (p : P) (a b : List (Op P)) : Spec.edited p (a ++ b) = Spec.edited (Spec.edited p a) b := by
  induction a generalizing p with
  | nil => rfl
  | cons op a ih => cases op <;> simp only [List.cons_append, Spec.edited, ih]

theorem edited_none (p : P) (c : List (Op P)) (h : ∀ op ∈ c, ¬ Spec.IsEdit op) : Spec.edited p c = p := by
  induction c with
  | nil => rfl
  | cons op c ih =>
    have h1 := h op (by simp)
    have h2 := ih (fun o ho => h o (by simp [ho]))
    cases op <;> first | exact absurd trivial h1 | (simp only [Spec.edited]; exact h2)

theorem run_edits (a : List (Op P)) (h : ∀ op ∈ a, Spec.IsEdit op) (s : St P F) : run G a s = { s with prior := Spec.edited s.prior a } := by
  induction a generalizing s with
  | nil => rfl
  | cons op a ih =>
    have h1 := h op (by simp)
    cases op <;> simp only [Spec.IsEdit] at h1
    show run G a (step G s _) = _
    rw [ih (fun o ho => h o (by simp [ho]))]
    rfl

theorem run_rest (c : List (Op P)) (h : ∀ op ∈ c, ¬ Spec.IsEdit op) (s : St P F) (hr : .reload ∈ c → s.prior = s.file) (hf : Fresh G s) :
    (run G c s).prior = s.prior ∧ Fresh G (run G c s) := by
  induction c generalizing s with
  | nil => exact ⟨rfl, hf⟩
  | cons op c ih =>
    obtain ⟨h1, h2, h3⟩ := step_prior (G := G) s op (h op (by simp)) (fun e => hr (by simp [e]))
    have := ih (fun o ho => h o (by simp [ho])) (step G s op) (fun hm => by rw [h1, h2]; exact hr (by simp [hm])) (h3 hf)
    exact ⟨this.1.trans h1, this.2⟩

/-- **C169** (holds if all changes come first, and the model is not saved and loaded after a change): draws, bounds and initial values, densities
and means belong to the prior as the user has changed it, whatever else is called, and whatever fails.

Missing: changes after `prep_estim` (`C169_stale_refuted`), and saving a changed model (`C169_lost_refuted`). -/
theorem C169_orderly_partial (G : P → Except PyErr F) (file : P) (ops : List (Op P)) (ho : Spec.Orderly ops) :
    let s := run G ops (ofRead file)
    let p := Spec.edited file ops
    meansOf s = p ∧ drawsFrom G s = G p ∧ (∀ f, bounds s = .ok f → G p = .ok f) ∧ (∀ f, density s = .ok f → G p = .ok f) := by
  intro s p
  obtain ⟨a, c, rfl, ha, hc, hr⟩ := ho
  have e1 : p = Spec.edited file a := by show Spec.edited file (a ++ c) = _; rw [edited_append, edited_none _ _ hc]
  have e2 : s = run G c (run G a (ofRead file)) := by show run G (a ++ c) _ = _; unfold run; rw [List.foldl_append]
  rw [run_edits a ha] at e2
  obtain ⟨h1, h2⟩ := run_rest (G := G) c hc { (ofRead file : St P F) with prior := Spec.edited file a } (fun hm => by
    rcases hr with rfl | hr
    · rfl
    · exact absurd hm hr) ⟨fun f hf => (by cases hf), fun f hf => (by cases hf)⟩
  have e3 : s = run G c { (ofRead file : St P F) with prior := Spec.edited file a } := e2
  rw [← e3] at h1 h2
  simp only at h1
  rw [← e1] at h1
  refine ⟨h1, ?_, fun f hf => ?_, fun f hf => ?_⟩
  · unfold drawsFrom
    cases hs : s.frozen with
    | none => simp only; rw [h1]
    | some f => simp only; rw [← h1]; exact (h2.frozen f hs).symm
  · unfold bounds at hf
    cases hs : s.frozen with
    | none => simp only [hs] at hf; cases hf
    | some f' => simp only [hs] at hf; cases hf; rw [← h1]; exact h2.frozen f hs
  · unfold density at hf
    cases hs : s.fns with
    | none => simp only [hs] at hf; cases hf
    | some f' => simp only [hs] at hf; cases hf; rw [← h1]; exact h2.fns f hs

/-- **C169** (holds right after a run of `prep_estim` without error): after any history, all of them belong to `self.prior`. -/
theorem C169_prepared_partial (G : P → Except PyErr F) (file : P) (ops : List (Op P)) (r : Run)
    (hok : (prep G r (run G ops (ofRead file))).2 = none) :
    let s := run G (ops ++ [.prep r]) (ofRead file)
    ∃ f, G (meansOf s) = .ok f ∧ drawsFrom G s = .ok f ∧ bounds s = .ok f ∧ density s = .ok f := by
  intro s
  have e : s = (prep G r (run G ops (ofRead file))).1 := by show run G (ops ++ [.prep r]) _ = _; unfold run; rw [List.foldl_append]; rfl
  generalize run G ops (ofRead file) = s0 at e hok
  unfold prep at e hok
  cases h1 : r.early with
  | some er => simp only [h1] at hok; cases hok
  | none =>
    cases h2 : G s0.prior with
    | error er => simp only [h1, h2] at hok; cases hok
    | ok f =>
      simp only [h1, h2] at e
      refine ⟨f, ?_⟩
      rw [e]
      exact ⟨h2, rfl, rfl, rfl⟩

/-- **C169** (the first preparation): after reading a model, or loading a saved one, and any changes of the prior, the first call of `prep_estim`, `mcmc`, `prior_sampler` or `get_chain`
that needs a preparation makes one, with the prior as it is now; everything is available then. -/
theorem C169_first_use (G : P → Except PyErr F) (file : P) (s₀ : St P F) (hs : s₀ = ofRead file ∨ ∃ s, s₀ = reload s) (a : List (Op P))
    (ha : ∀ op ∈ a, Spec.IsEdit op) {f : F} (hG : G (Spec.edited s₀.prior a) = .ok f) (op : Op P) (hop : op = .prep {} ∨ op = .ensure {} ∨ op = .chain {}) :
    let s := run G (a ++ [op]) s₀
    meansOf s = Spec.edited s₀.prior a ∧ drawsFrom G s = .ok f ∧ bounds s = .ok f ∧ density s = .ok f := by
  intro s
  have h0 : s₀.ndim = false ∧ s₀.fns = none := by
    rcases hs with rfl | ⟨s, rfl⟩ <;> exact ⟨rfl, rfl⟩
  have e : s = step G { s₀ with prior := Spec.edited s₀.prior a } op := by
    show run G (a ++ [op]) s₀ = _
    unfold run
    rw [List.foldl_append]
    show step G (run G a s₀) op = _
    rw [run_edits a ha]
  obtain ⟨h1, h2⟩ := h0
  have e' : s = { s₀ with prior := Spec.edited s₀.prior a, ndim := true, frozen := some f, fns := some f } := by
    rw [e]
    rcases hop with rfl | rfl | rfl
    · simp [step, prep, hG]
    · simp [step, ensure, prep, hG, h1]
    · simp [step, chain, prep, hG, h2]
  rw [e']
  exact ⟨rfl, rfl, rfl, rfl⟩

/-- **C169** (the first preparation), hypotheses: a prior that is a number, changed twice. -/
example : let s := run (F := Nat) (fun p : Nat => .ok (p + 1)) [.edit (· + 2), .edit (· * 3), .ensure {}] (ofRead 1)
    meansOf s = 9 ∧ density s = .ok 10 := by
  intro s
  exact ⟨rfl, rfl⟩

/-- **C169** (fails in general): whatever the model and the change, as long as the change matters, a change after `prep_estim` reaches the means, but
neither the draws from the prior, nor the bounds, nor the density; and `mcmc` or `prior_sampler(check_likelihood=True)` do not renew them. -/
theorem C169_stale_refuted (G : P → Except PyErr F) (file : P) (f : P → P) {a b : F} (ha : G file = .ok a) (hb : G (f file) = .ok b) (hab : a ≠ b)
    (r : Run) :
    let ops := [.prep {}, .edit f, .ensure r, .chain r]
    let s := run G ops (ofRead file)
    let p := Spec.edited file ops
    meansOf s = p ∧ G p = .ok b ∧ drawsFrom G s = .ok a ∧ bounds s = .ok a ∧ density s = .ok a ∧ drawsFrom G s ≠ G p := by
  intro ops s p
  have e : s = ⟨file, f file, some a, some a, true⟩ := by
    show run G [.prep {}, .edit f, .ensure r, .chain r] _ = _
    simp [run, step, prep, ensure, chain, ofRead, ha]
  have e2 : p = f file := rfl
  rw [e, e2]
  refine ⟨rfl, hb, rfl, rfl, rfl, ?_⟩
  rw [hb]
  intro h
  cases h
  exact hab rfl

/-- **C169** (fails in general): a change does not survive saving and loading. Draws and bounds keep it, but means and everything that
`load_estim` makes next are those of the model file: two priors at a time, then another one than was estimated. -/
theorem C169_lost_refuted (G : P → Except PyErr F) (file : P) (f : P → P) {a b : F} (ha : G file = .ok a) (hb : G (f file) = .ok b) (hab : a ≠ b) :
    let ops := [.edit f, .prep {}, .reload]
    let s := run G ops (ofRead file)
    Spec.edited file ops = f file ∧ meansOf s = file ∧ G (meansOf s) ≠ drawsFrom G s ∧ drawsFrom G s = .ok b ∧ bounds s = .ok b ∧
      (let s' := run G (ops ++ [.chain {}]) (ofRead file); density s' = .ok a ∧ drawsFrom G s' = .ok a) := by
  intro ops s
  have e : s = ⟨file, file, some b, none, false⟩ := by
    show run G [.edit f, .prep {}, .reload] _ = _
    simp [run, step, prep, reload, ofRead, hb]
  have e' : run G (ops ++ [.chain {}]) (ofRead file) = ⟨file, file, some a, some a, true⟩ := by
    show run G [.edit f, .prep {}, .reload, .chain {}] _ = _
    simp [run, step, prep, reload, chain, ofRead, ha, hb]
  refine ⟨rfl, by rw [e]; rfl, ?_, by rw [e]; rfl, by rw [e]; rfl, ?_⟩
  · rw [e]
    simp only [meansOf, drawsFrom, ha]
    intro h
    cases h
    exact hab rfl
  · simp only [e']
    exact ⟨rfl, rfl⟩

/-- **C169** (fails in general): if `prep_estim` fails because of the prior, and the prior is then put right, `mcmc` and
`prior_sampler(check_likelihood=True)` do not prepare the model, since `ndim` has been set before the prior was looked at: there is no density. -/
theorem C169_failed_refuted (G : P → Except PyErr F) (file : P) (f : P → P) {e : PyErr} {b : F} (ha : G file = .error e) (hb : G (f file) = .ok b) (r : Run) :
    let ops := [.prep {}, .edit f, .ensure r]
    let s := run G ops (ofRead file)
    G (Spec.edited file ops) = .ok b ∧ (prep G {} (ofRead file)).2 = some e ∧ (ensure G r (run G [.prep {}, .edit f] (ofRead file))).2 = none ∧
      density s = .error .attributeError ∧ bounds s = .error .keyError ∧ drawsFrom G s = .ok b := by
  intro ops s
  have e1 : s = ⟨file, f file, none, none, true⟩ := by
    show run G [.prep {}, .edit f, .ensure r] _ = _
    simp [run, step, prep, ensure, ofRead, ha]
  rw [e1]
  refine ⟨hb, by simp [prep, ofRead, ha], by simp [run, step, prep, ensure, ofRead, ha], rfl, rfl, hb⟩

/-- The prior of the tutorial: mean and standard deviation of `rho_u` are changed to 0.8 and 0.05. -/
def PriorEx.change (p : List (String × Rat × Rat)) : List (String × Rat × Rat) := p.map fun q => if q.1 = "rho_u" then ("rho_u", 4/5, 1/20) else q

/-- The hypotheses of C169 are met: a history with a change, a failed and a successful preparation; and a change that matters. -/
theorem C169_hypotheses_met :
    let G : List (String × Rat × Rat) → Except PyErr (List (Rat × Rat)) := fun p => .ok (p.map (·.2))
    let file : List (String × Rat × Rat) := [("theta", 1/2, 1/10), ("rho_u", 1/2, 1/5)]
    let ops : List (Op (List (String × Rat × Rat))) := [.edit PriorEx.change, .prep ⟨some .valueError, none⟩, .prep {}, .ensure {}, .chain {}]
    Spec.Orderly ops ∧ (prep G {} (run G ops (ofRead file))).2 = none ∧ Spec.edited file ops ≠ file ∧
      G file = .ok [(1/2, 1/10), (1/2, 1/5)] ∧ G (PriorEx.change file) = .ok [(1/2, 1/10), (4/5, 1/20)] := by
  intro G file ops
  refine ⟨⟨[.edit PriorEx.change], [.prep ⟨some .valueError, none⟩, .prep {}, .ensure {}, .chain {}], rfl, ?_, ?_, .inr ?_⟩, ?_, ?_, ?_, ?_⟩
  · intro op h; simp at h; subst h; trivial
  · intro op h
    simp only [List.mem_cons, List.not_mem_nil, or_false] at h
    rcases h with rfl | rfl | rfl | rfl <;> exact id
  · simp
  · rfl
  · decide +kernel
  · rfl
  · exact congrArg Except.ok (by decide +kernel)

end Pydsge
