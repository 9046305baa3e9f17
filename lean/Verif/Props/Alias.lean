import Verif.Model.Alias
import Verif.Props.ParSets

/-!
# C154: arrays of the user and arrays of the model
-/

set_option autoImplicit false
set_option linter.unusedSectionVars false
set_option linter.unusedSimpArgs false

namespace Pydsge

open Params Alias

namespace Spec
variable {K PP VV HX LS TT QQ : Type}

/-- The names of the sets of parameters that the model stores as arrays. -/
def storedSets : List String := ["best", "init", "mode", "mcmc_mode", "mode_mcmc", "posterior_mode", "post_mode"]

/-- The user does not hold an array of the model; addresses are in use. -/
structure Separate (s : State K PP VV HX LS TT QQ) : Prop where
  mode : ∀ a, s.mode = some a → a ∉ s.owned ∧ a < s.mem.next
  init : ∀ a, s.init = some a → a ∉ s.owned ∧ a < s.mem.next
  owned : ∀ a ∈ s.owned, a < s.mem.next

/-- All calls of `set_par`, and those of `get_par` that ask for all parameters, for several samples, for anything but a stored set, or, if
the current parameters (where there are any) have the right number, for the current values of the estimated parameters. -/
def Asks (D : Decl K) (s : State K PP VV HX LS TT QQ) : Ev K → Prop
  | .get arg npar full n _ => full = true ∨ 1 < n ∨ (∃ a, arg = .arr a) ∨ (∃ n, arg = .str n ∧ n ∉ storedSets) ∨
      (arg = .none ∧ ∀ v, s.ob.a.par = some v → v.length = D.names.length)
  | _ => True

/-- A sequence of events, each of which is of this kind in the state in which it happens. -/
def AllAsk [Field K] [LinearOrder K] (S : Solver K PP VV HX LS TT QQ) (D : Decl K) (dr : Draws K) (sq : QQ → QQ) :
    State K PP VV HX LS TT QQ → List (Ev K) → Prop
  | _, [] => True
  | s, e :: es => Asks D s e ∧ AllAsk S D dr sq (step S D dr sq s e) es

/-- Writes of the user. -/
def IsWrite : Ev K → Prop
  | .write _ _ _ => True
  | _ => False

/-- The event does not write into this array. -/
def NotInto (a : Nat) : Ev K → Prop
  | .write b _ _ => b ≠ a
  | _ => True

end Spec

namespace Alias
variable {K PP VV HX LS TT QQ : Type} [Field K] [LinearOrder K]
variable {S : Solver K PP VV HX LS TT QQ} {D : Decl K} {dr : Draws K} {sq : QQ → QQ}

theorem writeBack_fields (s : State K PP VV HX LS TT QQ) (ob : Obj K PP VV HX LS TT QQ) :
    (writeBack s ob).mode = s.mode ∧ (writeBack s ob).init = s.init ∧ (writeBack s ob).owned = s.owned ∧
      (writeBack s ob).mem.next = s.mem.next ∧ ∀ a, s.init ≠ some a → (writeBack s ob).mem.arr a = s.mem.arr a := by
  refine ⟨rfl, rfl, rfl, ?_, fun a ha => ?_⟩
  · unfold writeBack
    simp only
    split <;> rfl
  · unfold writeBack
    simp only
    split
    · rename_i b v hb hv
      have : a ≠ b := by rintro rfl; exact ha hb
      simp [Mem.put, Function.update_of_ne this]
    · rfl

theorem separate_writeBack {s : State K PP VV HX LS TT QQ} (h : Spec.Separate s) (ob : Obj K PP VV HX LS TT QQ) :
    Spec.Separate (writeBack s ob) := by
  obtain ⟨h1, h2, h3, h4, _⟩ := writeBack_fields s ob
  exact ⟨fun a ha => by rw [h3, h4]; exact h.mode a (h1 ▸ ha), fun a ha => by rw [h3, h4]; exact h.init a (h2 ▸ ha),
    fun a ha => by rw [h4]; exact h.owned a (h3 ▸ ha)⟩

/-- A new array for the user. -/
theorem separate_alloc {s : State K PP VV HX LS TT QQ} (h : Spec.Separate s) (v : List (Option K)) :
    Spec.Separate { s with mem := (s.mem.alloc v).2, owned := s.mem.next :: s.owned } := by
  refine ⟨fun a ha => ?_, fun a ha => ?_, fun a ha => ?_⟩
  · obtain ⟨h1, h2⟩ := h.mode a ha
    simp only [Mem.alloc, List.mem_cons, not_or]
    exact ⟨⟨by omega, h1⟩, by omega⟩
  · obtain ⟨h1, h2⟩ := h.init a ha
    simp only [Mem.alloc, List.mem_cons, not_or]
    exact ⟨⟨by omega, h1⟩, by omega⟩
  · simp only [Mem.alloc, List.mem_cons] at ha ⊢
    rcases ha with rfl | ha
    · omega
    · have := h.owned a ha; omega

/-- `get_par` has a result only if there are parameters to start with. -/
theorem getPar_start {g : GenArgs} {ob : Obj K PP VV HX LS TT QQ} {d : Dummy K} {npar : Option (List K)} {full : Bool} {n : Nat} {v : ParVal K QQ}
    (h : (getPar S D dr g ob d npar full n).2 = .ok v) : ∃ ob' pars, startPars S D g ob npar = (ob', .ok pars) := by
  unfold getPar at h
  rcases hs : startPars S D g ob npar with ⟨ob1, e | pars⟩
  · rw [hs] at h; cases h
  · exact ⟨_, _, rfl⟩

theorem startPars_npar_length (h : WF D) {g : GenArgs} {ob : Obj K PP VV HX LS TT QQ} {npar : Option (List K)} (ho : ParOK D ob)
    {ob' : Obj K PP VV HX LS TT QQ} {pars : List K} (hs : startPars S D g ob npar = (ob', .ok pars)) : pars.length = D.names.length := by
  cases npar with
  | none => exact startPars_length h ho hs
  | some w =>
    rcases h0 : startPars S D g ob none with ⟨ob1, e | p0⟩
    · exfalso
      unfold startPars at h0 hs
      simp only at h0 hs
      split at hs
      · simp at hs
      · rename_i h1
        rw [h1] at h0
        simp at h0
    · have hl := startPars_length h ho h0
      unfold startPars at h0 hs
      simp only at h0 hs
      split at hs
      · simp at hs
      · rename_i h1
        rw [h1] at h0
        simp only [Prod.mk.injEq, Except.ok.injEq] at h0
        rw [h0.2] at hs
        split_ifs at hs with h2
        · simp only [Prod.mk.injEq] at hs
          rw [assignPrior_length hs.2, hl]
        · simp only [Prod.mk.injEq, Except.ok.injEq] at hs
          rw [← hs.2, not_not.mp h2, h.len]

/-- What the calls do to the arrays. -/
theorem getParA_frame {s : State K PP VV HX LS TT QQ} (g : GenArgs) (arg : Arg) (npar : Option (List K)) (full : Bool) (n : Nat) :
    let s' := (getParA S D dr g s arg npar full n).1
    ∃ ob, s' = writeBack s ob ∨
      (∃ v, s' = { writeBack s ob with mem := ((writeBack s ob).mem.alloc v).2, owned := (writeBack s ob).mem.next :: s.owned }) ∨
      ∃ a ok, returned D s ok arg full n = some a ∧
        ok = (match startPars S D g s.view npar with
          | (_, .ok pars) => (takePrior D pars).toOption.isSome
          | (_, .error _) => false) ∧ (∃ ob' pars, startPars S D g s.view npar = (ob', .ok pars)) ∧ s' = { writeBack s ob with owned := a :: s.owned } := by
  intro s'
  refine ⟨(getPar S D dr g s.view (arg.read s.mem) npar full n).1, ?_⟩
  show (getParA S D dr g s arg npar full n).1 = _ ∨ (∃ v, (getParA S D dr g s arg npar full n).1 = _) ∨
    ∃ a ok, _ ∧ _ ∧ _ ∧ (getParA S D dr g s arg npar full n).1 = _
  unfold getParA
  rcases hg : getPar S D dr g s.view (arg.read s.mem) npar full n with ⟨ob, e | v⟩
  · exact Or.inl rfl
  · simp only
    cases hr : returned D s (match startPars S D g s.view npar with
        | (_, .ok pars) => (takePrior D pars).toOption.isSome
        | (_, .error _) => false) arg full n with
    | none => exact Or.inr (Or.inl ⟨_, rfl⟩)
    | some a => exact Or.inr (Or.inr ⟨a, _, hr, rfl, getPar_start (congrArg Prod.snd hg), rfl⟩)

theorem setParA_frame {s : State K PP VV HX LS TT QQ} (g : GenArgs) (arg : Arg) (x : Option K) :
    let s' := (setParA S D dr g sq s arg x).1
    ∃ ob, s' = writeBack s ob ∨
      ∃ v, s' = { writeBack s ob with mem := ((writeBack s ob).mem.alloc v).2, owned := (writeBack s ob).mem.next :: s.owned } := by
  intro s'
  refine ⟨(setPar S D dr g sq s.view (arg.read s.mem) x).1, ?_⟩
  show (setParA S D dr g sq s arg x).1 = _ ∨ ∃ v, (setParA S D dr g sq s arg x).1 = _
  unfold setParA
  rcases hg : setPar S D dr g sq s.view (arg.read s.mem) x with ⟨ob, e | v⟩
  · exact Or.inl rfl
  · exact Or.inr ⟨_, rfl⟩

/-- An existing array is only returned if it was passed. -/
theorem returned_held (h : WF D) {s : State K PP VV HX LS TT QQ} (g : GenArgs) (arg : Arg) (npar : Option (List K)) (full : Bool) (n : Nat)
    (hh : arg.held s.owned = true) (ha : Spec.Asks D s (.get arg npar full n g)) {a : Nat} {ok : Bool}
    (hr : returned D s ok arg full n = some a)
    (hok : ok = (match startPars S D g s.view npar with
          | (_, .ok pars) => (takePrior D pars).toOption.isSome
          | (_, .error _) => false))
    (hst : ∃ ob' pars, startPars S D g s.view npar = (ob', .ok pars)) : a ∈ s.owned := by
  unfold returned at hr
  simp only [Spec.Asks] at ha
  cases full with
  | true => simp at hr
  | false =>
    simp only [Bool.false_eq_true, if_false, false_or] at hr ha
    cases arg with
    | none =>
      simp only at hr
      split_ifs at hr with h1 h2
      · rcases ha with ha | ⟨_, ha⟩ | ⟨_, ha, _⟩ | ⟨_, hl⟩
        · exact absurd ha h1
        · cases ha
        · cases ha
        · exfalso
          obtain ⟨ob', v, hst⟩ := hst
          have hv := startPars_npar_length h (ob := s.view) hl hst
          rw [hst] at hok
          simp only at hok
          apply h2
          rw [hok]
          unfold takePrior
          cases hp : D.prior with
          | none => rfl
          | some p =>
            obtain ⟨w, hw⟩ := fancyGet_ok v p.arg (fun i hi => by rw [hv]; exact h.bound hp i hi)
            simp only [hw]
            rfl
    | str m =>
      simp only at hr
      split_ifs at hr with h1 h2 h3 h4 h5
      all_goals
        rcases ha with ha | ⟨_, ha⟩ | ⟨m', ha, hm⟩ | ⟨ha, _⟩
        · exact absurd ha h2
        · cases ha
        · cases ha
          exfalso
          apply hm
          first
            | (subst h3; simp [Spec.storedSets]; done)
            | (subst h5; simp [Spec.storedSets]; done)
            | (simp only [isMode, decide_eq_true_eq, List.mem_cons, List.not_mem_nil, or_false] at h4; simp [Spec.storedSets, h4]; done)
        · cases ha
    | arr b =>
      simp only [Arg.held, decide_eq_true_eq] at hh
      simp only at hr
      split_ifs at hr
      · split at hr
        · cases hr; exact hh
        · cases hr
      · cases hr; exact hh

theorem step_separate (h : WF D) {s : State K PP VV HX LS TT QQ} (hs : Spec.Separate s) (e : Ev K) (he : Spec.Asks D s e) :
    Spec.Separate (step S D dr sq s e) := by
  cases e with
  | get arg npar full n g =>
    simp only [step]
    split
    · rename_i hh
      obtain ⟨ob, h1 | ⟨v, h1⟩ | ⟨a, ok, hr, hok, hst, h1⟩⟩ := getParA_frame (S := S) (D := D) (dr := dr) (s := s) g arg npar full n
      · rw [h1]; exact separate_writeBack hs ob
      · rw [h1]; exact separate_alloc (separate_writeBack hs ob) v
      · rw [h1]
        have hmem := returned_held h g arg npar full n hh he hr hok hst
        have hw := separate_writeBack hs ob
        refine ⟨fun b hb => ?_, fun b hb => ?_, fun b hb => ?_⟩
        · obtain ⟨h2, h3⟩ := hw.mode b hb
          simp only [List.mem_cons, not_or]
          exact ⟨⟨by rintro rfl; exact h2 hmem, h2⟩, h3⟩
        · obtain ⟨h2, h3⟩ := hw.init b hb
          simp only [List.mem_cons, not_or]
          exact ⟨⟨by rintro rfl; exact h2 hmem, h2⟩, h3⟩
        · simp only [List.mem_cons] at hb
          rcases hb with rfl | hb
          · exact hw.owned _ hmem
          · exact hw.owned b hb
    · exact hs
  | set arg x g =>
    simp only [step]
    split
    · obtain ⟨ob, h1 | ⟨v, h1⟩⟩ := setParA_frame (S := S) (D := D) (dr := dr) (sq := sq) (s := s) g arg x
      · rw [h1]; exact separate_writeBack hs ob
      · rw [h1]; exact separate_alloc (separate_writeBack hs ob) v
    · exact hs
  | prep v =>
    refine ⟨fun a ha => ?_, fun a ha => ?_, fun a ha => ?_⟩
    · obtain ⟨h1, h2⟩ := hs.mode a ha
      exact ⟨h1, Nat.lt_succ_of_lt h2⟩
    · simp only [step, Option.some.injEq] at ha
      subst ha
      exact ⟨fun hm => absurd (hs.owned _ hm) (lt_irrefl _), Nat.lt_succ_self _⟩
    · exact Nat.lt_succ_of_lt (hs.owned a ha)
  | mcmc v =>
    refine ⟨fun a ha => ?_, fun a ha => ?_, fun a ha => ?_⟩
    · simp only [step, Option.some.injEq] at ha
      subst ha
      exact ⟨fun hm => absurd (hs.owned _ hm) (lt_irrefl _), Nat.lt_succ_self _⟩
    · obtain ⟨h1, h2⟩ := hs.init a ha
      exact ⟨h1, Nat.lt_succ_of_lt h2⟩
    · exact Nat.lt_succ_of_lt (hs.owned a ha)
  | make v => exact separate_alloc hs _
  | write a j x =>
    simp only [step]
    split
    · exact ⟨hs.mode, hs.init, hs.owned⟩
    · exact hs

theorem run_separate (h : WF D) (es : List (Ev K)) (s : State K PP VV HX LS TT QQ) (hs : Spec.Separate s) (he : Spec.AllAsk S D dr sq s es) :
    Spec.Separate (es.foldl (step S D dr sq) s) := by
  induction es generalizing s with
  | nil => exact hs
  | cons e es ih => exact ih _ (step_separate h hs e he.1) he.2

/-- A write of the user changes neither the model nor what belongs to whom. -/
theorem write_view {s : State K PP VV HX LS TT QQ} (hs : Spec.Separate s) {e : Ev K} (he : Spec.IsWrite e) :
    (step S D dr sq s e).view = s.view ∧ Spec.Separate (step S D dr sq s e) ∧ (step S D dr sq s e).owned = s.owned := by
  cases e with
  | write a j x =>
    simp only [step]
    split
    · rename_i ha
      refine ⟨?_, ⟨hs.mode, hs.init, hs.owned⟩, rfl⟩
      have h1 : (s.mode.map fun b => nums ((s.mem.put a ((s.mem.arr a).set j (some x))).arr b)) = s.mode.map fun b => nums (s.mem.arr b) := by
        cases hm : s.mode with
        | none => rfl
        | some b =>
          have : b ≠ a := by rintro rfl; exact (hs.mode _ hm).1 ha
          simp [Mem.put, Function.update_of_ne this]
      have h2 : s.init.map (s.mem.put a ((s.mem.arr a).set j (some x))).arr = s.init.map s.mem.arr := by
        cases hm : s.init with
        | none => rfl
        | some b =>
          have : b ≠ a := by rintro rfl; exact (hs.init _ hm).1 ha
          simp [Mem.put, Function.update_of_ne this]
      unfold State.view
      simp only [h1, h2]
    · exact ⟨rfl, hs, rfl⟩
  | _ => exact he.elim

theorem writes_view {s : State K PP VV HX LS TT QQ} (hs : Spec.Separate s) (ws : List (Ev K)) (hw : ∀ e ∈ ws, Spec.IsWrite e) :
    (ws.foldl (step S D dr sq) s).view = s.view ∧ Spec.Separate (ws.foldl (step S D dr sq) s) := by
  induction ws generalizing s with
  | nil => exact ⟨rfl, hs⟩
  | cons e ws ih =>
    obtain ⟨h1, h2, _⟩ := write_view (S := S) (D := D) (dr := dr) (sq := sq) hs (hw e (List.mem_cons_self ..))
    obtain ⟨h3, h4⟩ := ih h2 (fun e he => hw e (List.mem_cons_of_mem _ he))
    exact ⟨h3.trans h1, h4⟩

/-- The result of a call is that of `Params.getPar` with the contents of the arrays. -/
theorem getParA_value (g : GenArgs) (s : State K PP VV HX LS TT QQ) (arg : Arg) (npar : Option (List K)) (full : Bool) (n : Nat) :
    (getParA S D dr g s arg npar full n).2.map Prod.fst = (getPar S D dr g s.view (arg.read s.mem) npar full n).2 := by
  unfold getParA
  rcases getPar S D dr g s.view (arg.read s.mem) npar full n with ⟨ob, e | v⟩
  · rfl
  · simp only
    split <;> rfl

theorem setParA_value (g : GenArgs) (s : State K PP VV HX LS TT QQ) (arg : Arg) (x : Option K) :
    (setParA S D dr g sq s arg x).2.map Prod.fst = (setPar S D dr g sq s.view (arg.read s.mem) x).2 := by
  unfold setParA
  rcases setPar S D dr g sq s.view (arg.read s.mem) x with ⟨ob, e | v⟩ <;> rfl

end Alias

section
variable {K PP VV HX LS TT QQ : Type} [Field K] [LinearOrder K]
variable {S : Solver K PP VV HX LS TT QQ} {D : Decl K} {dr : Draws K} {sq : QQ → QQ}

/-- **C154 (partial).** After any sequence of calls (also failed ones) that do not ask for a stored set as it is: whatever the user writes into arrays that were
passed to the model or returned by it, the model is as before, and every call that does not pass an array has the same result as without the writes.

Missing: stored sets with `full=False` (`C154_mode_refuted`, `C154_init_refuted`). -/
theorem C154_writes_harmless_partial (h : WF D) (s : State K PP VV HX LS TT QQ) (hs : Spec.Separate s) (es : List (Ev K))
    (he : Spec.AllAsk S D dr sq s es) (ws : List (Ev K)) (hw : ∀ e ∈ ws, Spec.IsWrite e) :
    let s₁ := es.foldl (step S D dr sq) s
    let s₂ := ws.foldl (step S D dr sq) s₁
    s₂.view = s₁.view ∧
    (∀ arg, (∀ a, arg ≠ .arr a) → ∀ npar full n g,
      (getParA S D dr g s₂ arg npar full n).2.map Prod.fst = (getParA S D dr g s₁ arg npar full n).2.map Prod.fst) ∧
    ∀ arg, (∀ a, arg ≠ .arr a) → ∀ x g,
      (setParA S D dr g sq s₂ arg x).2.map Prod.fst = (setParA S D dr g sq s₁ arg x).2.map Prod.fst := by
  intro s₁ s₂
  have hv : s₂.view = s₁.view := (writes_view (run_separate h es s hs he) ws hw).1
  have hr : ∀ arg : Arg, (∀ a, arg ≠ .arr a) → arg.read s₂.mem = arg.read s₁.mem := by
    intro arg ha
    cases arg with
    | none => rfl
    | str _ => rfl
    | arr a => exact absurd rfl (ha a)
  refine ⟨hv, fun arg ha npar full n g => ?_, fun arg ha x g => ?_⟩
  · rw [getParA_value, getParA_value, hv, hr arg ha]
  · rw [setParA_value, setParA_value, hv, hr arg ha]

/-- **C154 (partial)**, the other direction: an array that the user holds (because it was passed or returned) is never changed by calls of this kind. -/
theorem C154_arrays_kept_partial (h : WF D) (es : List (Ev K)) : ∀ (s : State K PP VV HX LS TT QQ), Spec.Separate s →
    Spec.AllAsk S D dr sq s es → ∀ a ∈ s.owned, (∀ e ∈ es, Spec.NotInto a e) → (es.foldl (step S D dr sq) s).mem.arr a = s.mem.arr a := by
  induction es with
  | nil => intro s _ _ a _ _; rfl
  | cons e es ih =>
    intro s hs he a ha hn
    have h1 : (step S D dr sq s e).mem.arr a = s.mem.arr a ∧ a ∈ (step S D dr sq s e).owned := by
      have hlt := hs.owned a ha
      have hinit : s.init ≠ some a := fun hi => (hs.init a hi).1 ha
      cases e with
      | get arg npar full n g =>
        simp only [step]
        split
        · obtain ⟨ob, h1 | ⟨v, h1⟩ | ⟨b, ok, hr, hok, hst, h1⟩⟩ := getParA_frame (S := S) (D := D) (dr := dr) (s := s) g arg npar full n
          all_goals
            obtain ⟨_, _, ho, hnx, hcell⟩ := writeBack_fields s ob
            rw [h1]
          · exact ⟨hcell a hinit, by rw [ho]; exact ha⟩
          · refine ⟨?_, List.mem_cons_of_mem _ ha⟩
            simp only [Mem.alloc]
            rw [Function.update_of_ne (by omega)]
            exact hcell a hinit
          · exact ⟨hcell a hinit, List.mem_cons_of_mem _ ha⟩
        · exact ⟨rfl, ha⟩
      | set arg x g =>
        simp only [step]
        split
        · obtain ⟨ob, h1 | ⟨v, h1⟩⟩ := setParA_frame (S := S) (D := D) (dr := dr) (sq := sq) (s := s) g arg x
          all_goals
            obtain ⟨_, _, ho, hnx, hcell⟩ := writeBack_fields s ob
            rw [h1]
          · exact ⟨hcell a hinit, by rw [ho]; exact ha⟩
          · refine ⟨?_, List.mem_cons_of_mem _ ha⟩
            simp only [Mem.alloc]
            rw [Function.update_of_ne (by omega)]
            exact hcell a hinit
        · exact ⟨rfl, ha⟩
      | prep v =>
        refine ⟨?_, ha⟩
        simp only [step, Mem.alloc]
        rw [Function.update_of_ne (by omega)]
      | mcmc v =>
        refine ⟨?_, ha⟩
        simp only [step, Mem.alloc]
        rw [Function.update_of_ne (by omega)]
      | make v =>
        refine ⟨?_, List.mem_cons_of_mem _ ha⟩
        simp only [step, Mem.alloc]
        rw [Function.update_of_ne (by omega)]
      | write b j x =>
        have hb : b ≠ a := hn _ (List.mem_cons_self ..)
        simp only [step]
        split
        · refine ⟨?_, ha⟩
          simp only [Mem.put]
          rw [Function.update_of_ne hb.symm]
        · exact ⟨rfl, ha⟩
    rw [List.foldl_cons, ih _ (step_separate h hs e he.1) he.2 a h1.2 (fun e he => hn e (List.mem_cons_of_mem _ he)), h1.1]

/-- **C154** refuted: `get_par('mode', full=False)` gives the stored mode itself.  Writing into the result changes the mode that the model knows. -/
theorem C154_mode_refuted (s : State K PP VV HX LS TT QQ) (g : GenArgs) (w v : List K) (hw : s.ob.a.par = some w)
    (hn : "mode" ∉ D.names ∧ "mode" ∉ D.pfNames) (a : Nat) (hm : s.mode = some a) (ha : s.mem.arr a = v.map some) (hi : s.init ≠ some a)
    (j : Nat) (x : K) :
    let s₁ := step S D dr sq s (.get (.str "mode") none false 1 g)
    let s₂ := step S D dr sq s₁ (.write a j x)
    (getParA S D dr g s (.str "mode") none false 1).2 = .ok (.cand (.vec v), a) ∧ s₁.view.modeX = some v ∧ s₂.view.modeX = some (v.set j x) := by
  have hnums : ∀ l : List K, nums (l.map some) = l := by
    intro l
    simp [nums, List.filterMap_map]
  have hv : s.view.modeX = some v := by simp [State.view, hm, ha, hnums]
  have hv' : s.view.a.par = some w := hw
  have hg : getPar S D dr g s.view (.str "mode") none false 1 =
      ({ s.view with a := { s.view.a with par := some D.parFix } }, .ok (.cand (.vec v))) := by
    unfold getPar
    rw [startPars_some hv']
    simp only [List.idxOf?_eq_none_iff.mpr hn.1, List.idxOf?_eq_none_iff.mpr hn.2]
    rw [if_neg (by decide), if_neg (by decide)]
    have hnm : namedSet D dr s.view "mode" 1 = ({ s.view with a := { s.view.a with par := some D.parFix } }, .ok (.vec v)) := by
      unfold namedSet
      rw [if_neg (by decide), if_neg (by decide), if_neg (by decide), if_pos (by decide)]
      simp only [hv]
    rw [hnm]
    rfl
  have hr : ∀ ok, returned D s ok (.str "mode") false 1 = some a := by
    intro ok
    unfold returned
    simp only [hn.1, hn.2, hm]
    rfl
  have hA : getParA S D dr g s (.str "mode") none false 1 =
      ({ writeBack s { s.view with a := { s.view.a with par := some D.parFix } } with owned := a :: s.owned }, .ok (.cand (.vec v), a)) := by
    unfold getParA
    simp only [Arg.read, hg, hr]
    rfl
  have hcell : ∀ o : Obj K PP VV HX LS TT QQ, (writeBack s o).mem.arr a = v.map some := fun o => by
    rw [(writeBack_fields s o).2.2.2.2 a hi, ha]
  have h1 : step S D dr sq s (.get (.str "mode") none false 1 g) =
      { writeBack s { s.view with a := { s.view.a with par := some D.parFix } } with owned := a :: s.owned } := by
    simp only [step, Arg.held, if_true, hA]
  refine ⟨by rw [hA], ?_, ?_⟩
  · rw [h1]
    simp only [State.view, (writeBack_fields s _).1, hm, Option.map_some, hcell, hnums]
  · rw [h1]
    simp only [step, List.mem_cons, true_or, if_true, State.view, (writeBack_fields s _).1, hm, Option.map_some, Mem.put,
      Function.update_self, hcell, ← List.map_set, hnums]

/-- **C154** refuted for the initial values: before any sampling, `get_par('best', full=False)` and `get_par('init', full=False)` give the stored initial
values themselves. -/
theorem C154_init_refuted (s : State K PP VV HX LS TT QQ) (g : GenArgs) (w v : List K) (hw : s.ob.a.par = some w) (p : Prior K) (hp : D.prior = some p)
    (name : String) (hname : name = "init" ∨ (name = "best" ∧ s.mode = none))
    (hn : name ∉ D.names ∧ name ∉ D.pfNames) (a : Nat) (hm : s.init = some a) (ha : s.mem.arr a = v.map some)
    (hd : ∃ d, s.ob.ndim = some d) (calib : List K) (hc : fancyGet D.parFix p.arg = .ok calib) (hl : calib.length = v.length)
    (j : Nat) (x : K) :
    let s₁ := step S D dr sq s (.get (.str name) none false 1 g)
    let s₂ := step S D dr sq s₁ (.write a j x)
    (getParA S D dr g s (.str name) none false 1).2 = .ok (.cand (.vec v), a) ∧ s₁.view.initValue = some (v.map some) ∧
      s₂.view.initValue = some ((v.set j x).map some) := by
  have hv : s.view.initValue = some (v.map some) := by simp [State.view, hm, ha]
  have hv' : s.view.a.par = some w := hw
  obtain ⟨d, hd⟩ := hd
  have hd' : s.view.ndim = some d := hd
  have hfill : fillInit (v.map some) calib = v := by
    unfold fillInit
    apply List.ext_getElem
    · simp [hl]
    · intro i h1 h2
      simp
  have hnm : namedSet D dr s.view "init" 1 =
      ({ s.view with a := { s.view.a with par := some D.parFix }, initValue := some (v.map some) }, .ok (.vec v)) := by
    unfold namedSet
    rw [if_neg (by decide), if_neg (by decide), if_neg (by decide), if_neg (by decide), if_neg (by decide), if_neg (by decide), if_neg (by decide),
      if_pos rfl]
    simp only [hv, hd', hp, hc, hfill]
  have hg : getPar S D dr g s.view (.str name) none false 1 =
      ({ s.view with a := { s.view.a with par := some D.parFix }, initValue := some (v.map some) }, .ok (.cand (.vec v))) := by
    unfold getPar
    rw [startPars_some hv']
    simp only [List.idxOf?_eq_none_iff.mpr hn.1, List.idxOf?_eq_none_iff.mpr hn.2]
    rcases hname with rfl | ⟨rfl, hmode⟩
    · rw [if_neg (by decide), if_neg (by decide), hnm]
      rfl
    · rw [if_neg (by decide), if_pos rfl]
      have hb : bestSet D dr s.view =
          ({ s.view with a := { s.view.a with par := some D.parFix }, initValue := some (v.map some) }, .ok (.vec v)) := by
        have hmx : s.view.modeX = none := by simp [State.view, hmode]
        have h1 : namedSet D dr s.view "mode" 1 = ({ s.view with a := { s.view.a with par := some D.parFix } }, .error .keyError) := by
          unfold namedSet
          rw [if_neg (by decide), if_neg (by decide), if_neg (by decide), if_pos (by decide)]
          simp only [hmx]
        unfold bestSet
        rw [h1]
        simp only
        unfold namedSet
        rw [if_neg (by decide), if_neg (by decide), if_neg (by decide), if_neg (by decide), if_neg (by decide), if_neg (by decide),
          if_neg (by decide), if_pos rfl]
        simp only [hv, hd', hp, hc, hfill]
      rw [hb]
      rfl
  have hr : ∀ ok, returned D s ok (.str name) false 1 = some a := by
    intro ok
    unfold returned
    rcases hname with rfl | ⟨rfl, hmode⟩
    · simp only [hn.1, hn.2, hm]
      rfl
    · simp only [hn.1, hn.2, State.best, hmode, hm]
      rfl
  have hA : getParA S D dr g s (.str name) none false 1 =
      ({ writeBack s { s.view with a := { s.view.a with par := some D.parFix }, initValue := some (v.map some) } with owned := a :: s.owned },
        .ok (.cand (.vec v), a)) := by
    unfold getParA
    simp only [Arg.read, hg, hr]
    rfl
  have hcell : ∀ o : Obj K PP VV HX LS TT QQ, o.initValue = some (v.map some) → (writeBack s o).mem.arr a = v.map some := fun o ho => by
    simp [writeBack, hm, ho, Mem.put]
  have h1 : step S D dr sq s (.get (.str name) none false 1 g) =
      { writeBack s { s.view with a := { s.view.a with par := some D.parFix }, initValue := some (v.map some) } with owned := a :: s.owned } := by
    simp only [step, Arg.held, if_true, hA]
  refine ⟨by rw [hA], ?_, ?_⟩
  · rw [h1]
    simp only [State.view, (writeBack_fields s _).2.1, hm, Option.map_some]
    rw [hcell _ rfl]
  · rw [h1]
    simp only [step, List.mem_cons, true_or, if_true, State.view, (writeBack_fields s _).2.1, hm, Option.map_some, Mem.put,
      Function.update_self, ← List.map_set]
    rw [hcell _ rfl, List.map_set]

/-- The partial theorems are not vacuous: `ParEx` with stored mode and initial values.  The user makes an array, sets it, writes into it, and asks for
the current values. -/
def AliasEx : State Rat (List Rat) String Rat Rat Rat Rat :=
  ⟨⟨fun a => if a = 0 then [some 7, some 8] else [some 3, none], 2⟩, { ParEx.solved with ndim := some 2 }, some 0, some 1, []⟩

theorem C154_hypotheses_met :
    let es : List (Ev Rat) := [.make [5, 6], .set (.arr 2) none ⟨none, none, false⟩, .write 2 0 9, .get .none none false 1 ⟨none, none, false⟩]
    let s := es.foldl (step ParEx.solver ParEx.decl ParEx.draws id) AliasEx
    Spec.Separate AliasEx ∧ Spec.AllAsk ParEx.solver ParEx.decl ParEx.draws id AliasEx es ∧
      s.ob.a.par = some [0, 6, 5] ∧ s.mem.arr 2 = [some 9, some 6] ∧ s.view.modeX = some [7, 8] ∧ s.owned = [4, 3, 2] := by
  intro es s
  refine ⟨⟨fun a ha => ?_, fun a ha => ?_, fun a ha => ?_⟩, ⟨trivial, trivial, trivial, ?_, trivial⟩, ?_, ?_, ?_, ?_⟩
  · simp only [AliasEx, Option.some.injEq] at ha; subst ha; exact ⟨by simp [AliasEx], by decide⟩
  · simp only [AliasEx, Option.some.injEq] at ha; subst ha; exact ⟨by simp [AliasEx], by decide⟩
  · simp [AliasEx] at ha
  · refine Or.inr (Or.inr (Or.inr (Or.inr ⟨rfl, ?_⟩)))
    have : (step ParEx.solver ParEx.decl ParEx.draws id (step ParEx.solver ParEx.decl ParEx.draws id (step ParEx.solver ParEx.decl ParEx.draws id
      AliasEx (.make [5, 6])) (.set (.arr 2) none ⟨none, none, false⟩)) (.write 2 0 9)).ob.a.par = some [0, 6, 5] := by decide +kernel
    rw [this]
    intro v hv
    cases hv
    rfl
  all_goals decide +kernel

/-- The hypotheses of the refutations are met: the mode of `AliasEx` becomes `[1, 8]`. -/
theorem C154_mode_witness :
    (([.get (.str "mode") none false 1 ⟨none, none, false⟩, .write 0 0 1] : List (Ev Rat)).foldl
      (step ParEx.solver ParEx.decl ParEx.draws id) AliasEx).view.modeX = some [1, 8] := by decide +kernel

end
end Pydsge
