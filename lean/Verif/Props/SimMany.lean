import Verif.Model.SimMany
import Verif.Props.Batch
import Verif.Props.Gfevd
import Verif.Props.Stability

/-!
# C144, C145: `simulate` for several samples
-/

set_option autoImplicit false
set_option linter.unusedSectionVars false
set_option linter.unusedSimpArgs false

namespace Pydsge

open Matrix Pydsge.Engine Pydsge.GenSys Pydsge.Tools Pydsge.Batch Pydsge.SimMany

variable {z ε p o K σ P : Type} [Fintype z] [Fintype ε] [Fintype p] [Fintype o] [DecidableEq z] [DecidableEq ε] [DecidableEq p]
  [Field K] [LinearOrder K]

namespace Spec

/-- The result `r` belongs to the parameters `par`, residuals `eps` and initial state `st`: `set_par` succeeds for these parameters on the model, and `r` is the
simulation with the solution it then holds. -/
def SimulatedBy (O : Ops σ P z ε p o K) (a : Args ε K) (x : σ) (par : P) (eps : List (ε → K)) (st : p ⊕ z → K) (r : SimRes z p K) : Prop :=
  (O.setPar par x).2 = none ∧ simulate (O.sol (O.setPar par x).1) a.linear a.mask a.operation st eps = .ok r

/-- The mask has as many rows as there are residuals, or one of the two has a single row. -/
def MaskFits (mask : Option (List (ε → Option K))) (eps : List (ε → K)) : Prop :=
  ∀ ms, mask = some ms → ms.length = eps.length ∨ ms.length = 1 ∨ eps.length = 1

end Spec

/-! ## Lemmas -/

theorem zip3_getElem? {A B C : Type} (as : List A) (bs : List B) (cs : List C) (i : Nat) (x : A × B × C) :
    (zip3 as bs cs)[i]? = some x ↔ as[i]? = some x.1 ∧ bs[i]? = some x.2.1 ∧ cs[i]? = some x.2.2 := by
  obtain ⟨a, b, c⟩ := x
  induction as generalizing bs cs i with
  | nil => simp [zip3]
  | cons a' as ih =>
    cases bs with
    | nil => simp [zip3]
    | cons b' bs =>
      cases cs with
      | nil => simp [zip3]
      | cons c' cs =>
        cases i with
        | zero => simp [zip3]
        | succ i => simpa [zip3] using ih bs cs i

theorem zip3_length {A B C : Type} (as : List A) (bs : List B) (cs : List C) :
    (zip3 as bs cs).length = min as.length (min bs.length cs.length) := by
  induction as generalizing bs cs with
  | nil => simp [zip3]
  | cons a' as ih =>
    cases bs with
    | nil => simp [zip3]
    | cons b' bs =>
      cases cs with
      | nil => simp [zip3]
      | cons c' cs =>
        simp only [zip3, List.length_cons, ih bs cs]
        omega

theorem sim_runner_frame (O : Ops σ P z ε p o K) (a : Args ε K) (pick : σ) (h : Heap σ) (t : Sample P z ε p K) :
    (∀ b < h.next, (SimMany.runner O a pick h t).1.cell b = h.cell b) ∧ h.next ≤ (SimMany.runner O a pick h t).1.next ∧
    (SimMany.runner O a pick h t).2 = (work O a pick t).2 := by
  unfold SimMany.runner loads Heap.put
  simp only [Function.update_self]
  refine ⟨fun b hb => ?_, Nat.le_succ _, trivial⟩
  rw [Function.update_of_ne (Nat.ne_of_lt hb), Function.update_of_ne (Nat.ne_of_lt hb)]

theorem sim_runAll (O : Ops σ P z ε p o K) (a : Args ε K) (pick : σ) (tasks : List (Sample P z ε p K)) :
    ∀ (is : List Nat) (h : Heap σ) (res : Nat → Option (Except PyErr (SimRes z p K))),
      (∀ b < h.next, (SimMany.runAll O a pick tasks is h res).1.cell b = h.cell b) ∧
      (∀ i, (SimMany.runAll O a pick tasks is h res).2 i =
        match tasks[i]? with
        | none => res i
        | some t => if i ∈ is then some (work O a pick t).2 else res i) := by
  intro is
  induction is with
  | nil =>
    intro h res
    refine ⟨fun _ _ => rfl, fun i => ?_⟩
    cases tasks[i]? <;> simp [SimMany.runAll]
  | cons j is ih =>
    intro h res
    cases hj : tasks[j]? with
    | none =>
      obtain ⟨g1, g2⟩ := ih h res
      simp only [SimMany.runAll, hj]
      refine ⟨g1, fun i => ?_⟩
      rw [g2 i]
      cases hi : tasks[i]? with
      | none => rfl
      | some t =>
        have : i ≠ j := by rintro rfl; rw [hj] at hi; cases hi
        simp [this]
    | some t =>
      obtain ⟨f1, f2, f3⟩ := sim_runner_frame O a pick h t
      obtain ⟨g1, g2⟩ := ih (SimMany.runner O a pick h t).1 (Function.update res j (some (SimMany.runner O a pick h t).2))
      simp only [SimMany.runAll, hj]
      refine ⟨fun b hb => by rw [g1 b (Nat.lt_of_lt_of_le hb f2), f1 b hb], fun i => ?_⟩
      rw [g2 i]
      cases hi : tasks[i]? with
      | none =>
        have : i ≠ j := by rintro rfl; rw [hj] at hi; cases hi
        simp [Function.update_of_ne this]
      | some t' =>
        by_cases hm : i ∈ is
        · simp [hm]
        · by_cases hij : i = j
          · subst hij
            rw [hj] at hi
            cases hi
            simp [hm, f3]
          · simp [hm, hij, Function.update_of_ne hij]

theorem sim_collect {R : Type} (res : Nat → Option (Except PyErr R)) :
    ∀ (is : List Nat) (rs : List R), SimMany.collect res is = .ok rs ↔ is.map res = rs.map (fun r => some (.ok r)) := by
  intro is
  induction is with
  | nil => intro rs; cases rs <;> simp [SimMany.collect]
  | cons i is ih =>
    intro rs
    unfold SimMany.collect
    rcases hi : res i with _ | (e | r)
    · cases rs <;> simp [hi]
    · cases rs <;> simp [hi]
    · simp only
      cases hc : SimMany.collect res is with
      | error e =>
        cases rs with
        | nil => simp
        | cons r' rs =>
          simp only [reduceCtorEq, List.map_cons, hi, List.cons.injEq, Option.some.injEq, Except.ok.injEq, false_iff, not_and]
          intro _ hh
          rw [(ih rs).2 hh] at hc
          cases hc
      | ok xs =>
        have h0 := (ih xs).1 hc
        cases rs with
        | nil => simp
        | cons r' rs =>
          simp only [Except.ok.injEq, List.cons.injEq, List.map_cons, hi, Option.some.injEq]
          constructor
          · rintro ⟨rfl, rfl⟩; exact ⟨rfl, h0⟩
          · rintro ⟨rfl, hh⟩
            have := (ih rs).2 hh
            rw [hc] at this
            exact ⟨rfl, by simpa using this⟩

theorem sim_collect_error {R : Type} (res : Nat → Option (Except PyErr R)) (f : Nat → Except PyErr R) (e : PyErr) :
    ∀ (is : List Nat), (∀ i ∈ is, res i = some (f i)) →
      (SimMany.collect res is = .error e ↔ ∃ n i : Nat, is[n]? = some i ∧ f i = .error e ∧ ∀ m < n, ∀ j : Nat, is[m]? = some j → ∃ r, f j = .ok r) := by
  intro is
  induction is with
  | nil => intro _; simp [SimMany.collect]
  | cons i is ih =>
    intro h
    have ih := ih (fun j hj => h j (by simp [hj]))
    unfold SimMany.collect
    rw [h i (by simp)]
    cases hf : f i with
    | error e' =>
      simp only [Except.error.injEq]
      constructor
      · rintro rfl
        exact ⟨0, i, rfl, hf, fun m hm => absurd hm (Nat.not_lt_zero _)⟩
      · rintro ⟨n, j, h1, h2, h3⟩
        cases n with
        | zero =>
          simp only [List.getElem?_cons_zero, Option.some.injEq] at h1
          subst h1
          rw [hf] at h2
          simpa using h2
        | succ n =>
          obtain ⟨r, hr⟩ := h3 0 (Nat.succ_pos _) i rfl
          rw [hf] at hr
          cases hr
    | ok r =>
      simp only
      refine Iff.trans (b := SimMany.collect res is = .error e) (by cases SimMany.collect res is <;> simp) ?_
      rw [ih]
      constructor
      · rintro ⟨n, j, h1, h2, h3⟩
        refine ⟨n + 1, j, by simpa using h1, h2, fun m hm k hk => ?_⟩
        cases m with
        | zero =>
          simp only [List.getElem?_cons_zero, Option.some.injEq] at hk
          subst hk
          exact ⟨r, hf⟩
        | succ m => exact h3 m (by omega) k (by simpa using hk)
      · rintro ⟨n, j, h1, h2, h3⟩
        cases n with
        | zero =>
          simp only [List.getElem?_cons_zero, Option.some.injEq] at h1
          subst h1
          rw [hf] at h2
          cases h2
        | succ n => exact ⟨n, j, by simpa using h1, h2, fun m hm k hk => h3 (m + 1) (by omega) k (by simpa using hk)⟩

theorem masked_error (op : K → K → K) (mask : Option (List (ε → Option K))) (eps : List (ε → K)) :
    (Spec.MaskFits mask eps ∧ ∃ es, masked op mask eps = .ok es) ∨ (¬ Spec.MaskFits mask eps ∧ masked op mask eps = .error .valueError) := by
  unfold Spec.MaskFits masked
  cases mask with
  | none => exact Or.inl ⟨by simp, _, rfl⟩
  | some ms =>
    simp only [Option.some.injEq, forall_eq', maskEps]
    by_cases h : ms.length = eps.length
    · simp [h]
    · rcases ms with _ | ⟨m1, _ | ⟨m2, ms⟩⟩ <;> rcases eps with _ | ⟨e1, _ | ⟨e2, es⟩⟩ <;> simp_all

theorem simulate_masked (m : Model z ε p o K) (linear : Bool) (mask : Option (List (ε → Option K))) (op : K → K → K) (st : p ⊕ z → K)
    {eps es : List (ε → K)} (h : masked op mask eps = .ok es) : simulate m linear none op st es = simulate m linear mask op st eps := by
  conv_rhs => rw [simulate, h]
  rfl

theorem work_ok (O : Ops σ P z ε p o K) (a : Args ε K) (x : σ) (t : Sample P z ε p K) (r : SimRes z p K) :
    (work O a x t).2 = .ok r ↔ Spec.SimulatedBy O a x t.1 t.2.1 t.2.2 r := by
  obtain ⟨par, eps, st⟩ := t
  unfold work Spec.SimulatedBy
  rcases masked_error a.operation a.mask eps with ⟨_, es, he⟩ | ⟨_, he⟩
  · rcases hs : O.setPar par x with ⟨x', _ | e⟩
    · simp [hs, he, simulate_masked _ _ _ _ _ he]
    · simp [hs, he]
  · simp [he, simulate]

theorem work_error (O : Ops σ P z ε p o K) (a : Args ε K) (x : σ) (t : Sample P z ε p K) (e : PyErr) :
    (work O a x t).2 = .error e ↔ (¬ Spec.MaskFits a.mask t.2.1 ∧ e = .valueError) ∨ (Spec.MaskFits a.mask t.2.1 ∧ ((O.setPar t.1 x).2 = some e ∨
      ((O.setPar t.1 x).2 = none ∧ simulate (O.sol (O.setPar t.1 x).1) a.linear a.mask a.operation t.2.2 t.2.1 = .error e))) := by
  obtain ⟨par, eps, st⟩ := t
  unfold work
  rcases masked_error a.operation a.mask eps with ⟨hf, es, he⟩ | ⟨hf, he⟩
  · rcases hs : O.setPar par x with ⟨x', _ | e⟩
    · simp [hs, he, hf, simulate_masked _ _ _ _ _ he]
    · simp [hs, he, hf]
  · simp [he, hf, eq_comm]

section Main

variable (O : Ops σ P z ε p o K) (a : Args ε K) {source : Option (SimSource (List P) (List (List (ε → K))) (List (p ⊕ z → K)))}
  {pars : Option (List P)} {resid : Option (List (List (ε → K)))} {init : Option (List (p ⊕ z → K))} {ps : List P} {es : List (List (ε → K))}
  {xs : List (p ⊕ z → K)}

/-- The source, and what the arguments are after the defaults have been filled in. -/
structure SimInputs (source : Option (SimSource (List P) (List (List (ε → K))) (List (p ⊕ z → K)))) (pars : Option (List P)) (resid : Option (List (List (ε → K))))
    (init : Option (List (p ⊕ z → K))) (ps : List P) (es : List (List (ε → K))) (xs : List (p ⊕ z → K)) : Prop where
  hasPars : ∃ s q, source = some s ∧ s.pars = some q
  pars : pars = some ps ∨ (pars = none ∧ ∃ s, source = some s ∧ s.pars = some ps)
  resid : resid = some es ∨ (resid = none ∧ ∃ s, source = some s ∧ s.resid = some es)
  init : init = some xs ∨ (init = none ∧ ∃ s, source = some s ∧ s.init = some xs)

theorem argOr_ok {P' R I α : Type} {x : Option α} {source : Option (SimSource P' R I)} {key : SimSource P' R I → Option α} {v : α}
    (h : x = some v ∨ (x = none ∧ ∃ s, source = some s ∧ key s = some v)) : argOr x source key = .ok v := by
  rcases h with rfl | ⟨rfl, s, rfl, hk⟩
  · cases source <;> rfl
  · simp [argOr, hk]

theorem simulateMany_eq (hi : SimInputs source pars resid init ps es xs) (sched : List Nat) {self : Nat} {h : Heap σ} {x : σ} (hx : h.cell self = some x) :
    simulateMany O a source pars resid init sched self h =
      ((SimMany.runAll O a (O.orDebug a.debug x) (zip3 ps es xs) sched (h.put self (O.orDebug a.debug x)) (fun _ => none)).1,
        SimMany.collect (SimMany.runAll O a (O.orDebug a.debug x) (zip3 ps es xs) sched (h.put self (O.orDebug a.debug x)) (fun _ => none)).2
          (List.range (zip3 ps es xs).length)) := by
  obtain ⟨s, q, hs, hq⟩ := hi.hasPars
  have h0 : argOr none source (fun s => s.pars) = .ok q := argOr_ok (Or.inr ⟨rfl, s, hs, hq⟩)
  unfold simulateMany
  rw [argOr_ok hi.pars, argOr_ok hi.resid, argOr_ok hi.init, hx]
  simp only [h0]

theorem sim_results (sched : List Nat) {x : σ} (h : Heap σ) (tasks : List (Sample P z ε p K)) (hs : sched.Perm (List.range tasks.length)) :
    ∀ i ∈ List.range tasks.length, ∀ t, tasks[i]? = some t →
      (SimMany.runAll O a x tasks sched h (fun _ => none)).2 i = some (work O a x t).2 := by
  intro i hi t ht
  rw [(sim_runAll O a x tasks sched h (fun _ => none)).2 i, ht]
  simp only
  rw [if_pos (hs.mem_iff.2 hi)]

/-- **C144**: for every model object, every heap, all samples and every order in which workers process them: `simulate` returns results if and only if every sample can be
simulated, and the results are those of the samples in their order, where sample `i` consists of the `i`-th parameters, the `i`-th residuals and the `i`-th initial state. -/
theorem C144_results (hi : SimInputs source pars resid init ps es xs) {self : Nat} {h : Heap σ} {x : σ} (hx : h.cell self = some x) {sched : List Nat}
    (hs : sched.Perm (List.range (min ps.length (min es.length xs.length)))) (rs : List (SimRes z p K)) :
    (simulateMany O a source pars resid init sched self h).2 = .ok rs ↔
      rs.length = min ps.length (min es.length xs.length) ∧
      ∀ (i : Nat) par eps st r, ps[i]? = some par → es[i]? = some eps → xs[i]? = some st → rs[i]? = some r →
        Spec.SimulatedBy O a (O.orDebug a.debug x) par eps st r := by
  rw [← zip3_length] at hs
  have hr := sim_results O a sched (x := O.orDebug a.debug x) (h.put self (O.orDebug a.debug x)) (zip3 ps es xs) hs
  rw [simulateMany_eq O a hi sched hx, sim_collect, ← zip3_length]
  constructor
  · intro hm
    have hl : rs.length = (zip3 ps es xs).length := by
      have := congrArg List.length hm
      simpa using this.symm
    refine ⟨hl, ?_⟩
    intro i par eps st r h1 h2 h3 h4
    have hz : (zip3 ps es xs)[i]? = some (par, eps, st) := (zip3_getElem? _ _ _ _ _).2 ⟨h1, h2, h3⟩
    have hlt : i < (zip3 ps es xs).length := (List.getElem?_eq_some_iff.1 hz).1
    have hm' := congrArg (fun l => l[i]?) hm
    simp only [List.getElem?_map, List.getElem?_range hlt, h4, Option.map_some] at hm'
    rw [hr i (List.mem_range.2 hlt) _ hz] at hm'
    simp only [Option.some.injEq] at hm'
    exact (work_ok O a _ _ _).1 hm'
  · rintro ⟨hl, hh⟩
    apply List.ext_getElem?
    intro i
    simp only [List.getElem?_map]
    by_cases hlt : i < (zip3 ps es xs).length
    · obtain ⟨t, ht⟩ : ∃ t, (zip3 ps es xs)[i]? = some t := ⟨_, List.getElem?_eq_getElem hlt⟩
      obtain ⟨r, hrr⟩ : ∃ r, rs[i]? = some r := ⟨_, List.getElem?_eq_getElem (hl ▸ hlt)⟩
      obtain ⟨h1, h2, h3⟩ := (zip3_getElem? _ _ _ _ _).1 ht
      rw [List.getElem?_range hlt, hrr]
      simp only [Option.map_some]
      rw [hr i (List.mem_range.2 hlt) _ ht, (work_ok O a _ _ _).2 (hh i _ _ _ r h1 h2 h3 hrr)]
    · rw [List.getElem?_eq_none (by simpa using hlt), List.getElem?_eq_none (by omega)]
      rfl

/-- **C144**, exceptions: `simulate` raises if and only if some sample fails, and then with the exception of the first sample that fails: the mask has another number of
rows than the residuals (and neither has one), `set_par` raises for its parameters, or the transition does with the solution for these parameters. -/
theorem C144_first_exception (hi : SimInputs source pars resid init ps es xs) {self : Nat} {h : Heap σ} {x : σ} (hx : h.cell self = some x) {sched : List Nat}
    (hs : sched.Perm (List.range (min ps.length (min es.length xs.length)))) (e : PyErr) :
    (simulateMany O a source pars resid init sched self h).2 = .error e ↔
      ∃ (i : Nat) (par : P) (eps : List (ε → K)) (st : p ⊕ z → K), ps[i]? = some par ∧ es[i]? = some eps ∧ xs[i]? = some st ∧
        ((¬ Spec.MaskFits a.mask eps ∧ e = .valueError) ∨ (Spec.MaskFits a.mask eps ∧ ((O.setPar par (O.orDebug a.debug x)).2 = some e ∨
          ((O.setPar par (O.orDebug a.debug x)).2 = none ∧
            simulate (O.sol (O.setPar par (O.orDebug a.debug x)).1) a.linear a.mask a.operation st eps = .error e)))) ∧
        ∀ j < i, ∀ par' eps' st', ps[j]? = some par' → es[j]? = some eps' → xs[j]? = some st' →
          ∃ r, Spec.SimulatedBy O a (O.orDebug a.debug x) par' eps' st' r := by
  rw [← zip3_length] at hs
  have hr := sim_results O a sched (x := O.orDebug a.debug x) (h.put self (O.orDebug a.debug x)) (zip3 ps es xs) hs
  rw [simulateMany_eq O a hi sched hx]
  simp only
  rw [sim_collect_error _ (fun i => match (zip3 ps es xs)[i]? with
    | none => .error .exception
    | some t => (work O a (O.orDebug a.debug x) t).2) e (List.range (zip3 ps es xs).length)]
  · constructor
    · rintro ⟨n, i, h1, h2, h3⟩
      have hn : n < (zip3 ps es xs).length := by simpa using (List.getElem?_eq_some_iff.1 h1).1
      rw [List.getElem?_range hn, Option.some.injEq] at h1
      subst h1
      rw [List.getElem?_eq_getElem hn] at h2
      obtain ⟨g1, g2, g3⟩ := (zip3_getElem? _ _ _ _ _).1 (List.getElem?_eq_getElem hn)
      refine ⟨n, _, _, _, g1, g2, g3, (work_error O a _ _ _).1 h2, ?_⟩
      intro j hj par' eps' st' k1 k2 k3
      obtain ⟨r, hrr⟩ := h3 j hj j (List.getElem?_range (Nat.lt_trans hj hn))
      rw [(zip3_getElem? ps es xs j (par', eps', st')).2 ⟨k1, k2, k3⟩] at hrr
      exact ⟨r, (work_ok O a _ _ _).1 hrr⟩
    · rintro ⟨i, par, eps, st, g1, g2, g3, hw, hb⟩
      have hz := (zip3_getElem? ps es xs i (par, eps, st)).2 ⟨g1, g2, g3⟩
      have hlt : i < (zip3 ps es xs).length := (List.getElem?_eq_some_iff.1 hz).1
      refine ⟨i, i, List.getElem?_range hlt, ?_, ?_⟩
      · rw [hz]
        exact (work_error O a _ _ _).2 hw
      · intro m hm j hj
        have hmlt : m < (zip3 ps es xs).length := Nat.lt_trans hm hlt
        rw [List.getElem?_range hmlt, Option.some.injEq] at hj
        subst hj
        rw [List.getElem?_eq_getElem hmlt]
        obtain ⟨k1, k2, k3⟩ := (zip3_getElem? _ _ _ _ _).1 (List.getElem?_eq_getElem hmlt)
        obtain ⟨r, hrr⟩ := hb m hm _ _ _ k1 k2 k3
        exact ⟨r, (work_ok O a _ _ _).2 hrr⟩
  · intro i hi'
    have hlt : i < (zip3 ps es xs).length := List.mem_range.1 hi'
    rw [hr i hi' _ (List.getElem?_eq_getElem hlt)]
    simp [List.getElem?_eq_getElem hlt]

/-- **C144**, side effects: whatever happens, every object that existed before the call is as before, except that the model itself has been given the debug flag. -/
theorem C144_model_unchanged {self : Nat} {h : Heap σ} (hok : HeapOK h) {x : σ} (hx : h.cell self = some x) (sched : List Nat) :
    let h' := (simulateMany O a source pars resid init sched self h).1
    (h'.cell self = some x ∨ h'.cell self = some (O.orDebug a.debug x)) ∧ ∀ b y, b ≠ self → h.cell b = some y → h'.cell b = some y := by
  have hlt : ∀ b y, h.cell b = some y → b < h.next := fun b y hb => by
    by_contra hc
    rw [hok b (Nat.le_of_not_lt hc)] at hb
    cases hb
  have hput : ∀ b y, b ≠ self → h.cell b = some y → (h.put self (O.orDebug a.debug x)).cell b = some y := fun b y hne hb => by
    simp only [Heap.put, Function.update_of_ne hne, hb]
  have hput' : (h.put self (O.orDebug a.debug x)).cell self = some (O.orDebug a.debug x) := by simp only [Heap.put, Function.update_self]
  simp only
  unfold simulateMany
  split
  · exact ⟨Or.inl hx, fun b y _ hb => hb⟩
  · exact ⟨Or.inl hx, fun b y _ hb => hb⟩
  · exact ⟨Or.inl hx, fun b y _ hb => hb⟩
  · rename_i ps es xs _ _ _
    rw [hx]
    simp only
    split
    · exact ⟨Or.inr hput', hput⟩
    · obtain ⟨g1, _⟩ := sim_runAll O a (O.orDebug a.debug x) (zip3 ps es xs) sched (h.put self (O.orDebug a.debug x)) (fun _ => none)
      refine ⟨Or.inr ?_, fun b y hne hb => ?_⟩
      · exact (g1 self (hlt self x hx)).trans hput'
      · exact (g1 b (hlt b y hb)).trans (hput b y hne hb)

/-- **C144**, samples do not influence each other: if the samples with the indices `idx` are passed in the order of `idx` (a subset, a reordering, or with repetitions),
then the results are those of these samples. -/
theorem C144_selection (hi : SimInputs source pars resid init ps es xs) (hl : es.length = ps.length) (hl' : xs.length = ps.length) {self : Nat} {h : Heap σ} {x : σ}
    (hx : h.cell self = some x) {sched sched' : List Nat} (hs : sched.Perm (List.range ps.length)) {rs : List (SimRes z p K)}
    (hrs : (simulateMany O a source pars resid init sched self h).2 = .ok rs) (idx : List Nat) (hidx : ∀ i ∈ idx, i < ps.length)
    (hs' : sched'.Perm (List.range idx.length)) :
    (simulateMany O a source (some (idx.filterMap (ps[·]?))) (some (idx.filterMap (es[·]?))) (some (idx.filterMap (xs[·]?))) sched' self h).2 =
      .ok (idx.filterMap (rs[·]?)) := by
  have key : ∀ {α : Type} (l : List α), l.length = ps.length → (idx.filterMap (l[·]?)).length = idx.length ∧
      ∀ (n i : Nat), idx[n]? = some i → (idx.filterMap (l[·]?))[n]? = l[i]? := by
    intro α l hll
    clear hs'
    induction idx with
    | nil => simp
    | cons i idx ih =>
      obtain ⟨k1, k2⟩ := ih (fun j hj => hidx j (by simp [hj]))
      have hi' : i < l.length := hll ▸ hidx i (by simp)
      rw [List.filterMap_cons, List.getElem?_eq_getElem hi']
      refine ⟨by simpa using k1, ?_⟩
      intro n j hn
      cases n with
      | zero =>
        simp only [List.getElem?_cons_zero, Option.some.injEq] at hn ⊢
        subst hn
        rw [List.getElem?_eq_getElem hi']
      | succ n => simpa using k2 n j (by simpa using hn)
  obtain ⟨c1, c2⟩ := (C144_results O a hi hx (by rw [hl, hl']; simpa using hs) rs).1 hrs
  have c1 : rs.length = ps.length := by rw [c1, hl, hl']; simp
  obtain ⟨a1, a2⟩ := key ps rfl
  obtain ⟨b1, b2⟩ := key es hl
  obtain ⟨d1, d2⟩ := key xs hl'
  obtain ⟨e1, e2⟩ := key rs c1
  have hi' : SimInputs source (some (idx.filterMap (ps[·]?))) (some (idx.filterMap (es[·]?))) (some (idx.filterMap (xs[·]?))) (idx.filterMap (ps[·]?))
      (idx.filterMap (es[·]?)) (idx.filterMap (xs[·]?)) := ⟨hi.hasPars, Or.inl rfl, Or.inl rfl, Or.inl rfl⟩
  refine (C144_results O a hi' hx (by rw [a1, b1, d1]; simpa using hs') _).2 ⟨by rw [a1, b1, d1, e1]; simp, ?_⟩
  intro n par eps st r h1 h2 h3 h4
  have hn : n < idx.length := by rw [← a1]; exact (List.getElem?_eq_some_iff.1 h1).1
  obtain ⟨i, hin⟩ : ∃ i, idx[n]? = some i := ⟨_, List.getElem?_eq_getElem hn⟩
  rw [a2 n i hin] at h1
  rw [b2 n i hin] at h2
  rw [d2 n i hin] at h3
  rw [e2 n i hin] at h4
  exact c2 i par eps st r h1 h2 h3 h4

end Main

/-! ## Examples -/

theorem simLoop_linear_ok {mod : Model (Fin 1) (Fin 1) (Fin 1) (Fin 1) Rat} {b : Rat} (h : Succeeded (Ex1.layB b) Ex1.orc 3 1 (serial 1) mod)
    (es : List (Fin 1 → Rat)) : ∀ st, ∃ r, simLoop mod true st es = .ok r := by
  induction es with
  | nil => intro st; exact ⟨_, rfl⟩
  | cons e es ih =>
    intro st
    obtain ⟨r, hr⟩ := ih (Sum.elim (mod.omg *ᵥ q0Of st e) (fun i => (mod.lam *ᵥ q0Of st e) (.inl i)))
    simp only [simLoop, tFunc_linear_eq h, hr]
    exact ⟨_, rfl⟩

/-- Objects that hold the bound of the first example and the debug flag; a bound that is not negative is refused. -/
def boundOps (solB : Rat → Model (Fin 1) (Fin 1) (Fin 1) (Fin 1) Rat) : Ops (Rat × Bool) Rat (Fin 1) (Fin 1) (Fin 1) (Fin 1) Rat where
  orDebug := fun d x => (x.1, x.2 || d)
  setPar := fun b x => ((b, x.2), if b < 0 then none else some .valueError)
  vv := fun _ => ["r", "y"]
  sol := fun x => solB x.1

/-- **C145** (fails): a list of parameters that is shorter than that of the residuals is not noticed: the second sample is lost, and nothing is raised. -/
theorem C145_refuted : ∃ (solB : Rat → Model (Fin 1) (Fin 1) (Fin 1) (Fin 1) Rat), (∀ b, Succeeded (Ex1.layB b) Ex1.orc 3 1 (serial 1) (solB b)) ∧
    ∃ r, (simulateMany (boundOps solB) ⟨none, (· * ·), true, false⟩ (some ⟨some [-1], some [[fun _ => 1], [fun _ => 2]], some [0, 0]⟩) none none none [0] 0
      ⟨fun b => if b = 0 then some (-1, false) else none, 1⟩).2 = .ok [r] := by
  obtain ⟨solB, h⟩ := ex1_bounds
  refine ⟨solB, fun b => (h b).1, ?_⟩
  obtain ⟨r, hr⟩ := simLoop_linear_ok (h (-1)).1 [fun _ => 1] 0
  refine ⟨r, (C144_results (boundOps solB) _ (ps := [-1]) (es := [[fun _ => 1], [fun _ => 2]]) (xs := [0, 0])
    ⟨⟨_, _, rfl, rfl⟩, Or.inr ⟨rfl, _, rfl, rfl⟩, Or.inr ⟨rfl, _, rfl, rfl⟩, Or.inr ⟨rfl, _, rfl, rfl⟩⟩ rfl (List.Perm.refl _) [r]).2 ⟨rfl, ?_⟩⟩
  intro i par eps st r' h1 h2 h3 h4
  cases i with
  | succ i => simp at h1
  | zero =>
    simp only [List.getElem?_cons_zero, Option.some.injEq] at h1 h2 h3 h4
    subst h1 h2 h3 h4
    exact ⟨by simp [boundOps], hr⟩

/-- **C145** (partial): if there are as many parameter vectors and initial states as residuals, then there is one result for each of them (or an exception). -/
theorem C145_same_length_partial (O : Ops σ P z ε p o K) (a : Args ε K) {source : Option (SimSource (List P) (List (List (ε → K))) (List (p ⊕ z → K)))}
    {pars : Option (List P)} {resid : Option (List (List (ε → K)))} {init : Option (List (p ⊕ z → K))} {ps : List P} {es : List (List (ε → K))}
    {xs : List (p ⊕ z → K)} (hi : SimInputs source pars resid init ps es xs) (hl : ps.length = es.length) (hl' : xs.length = es.length) {self : Nat} {h : Heap σ}
    {x : σ} (hx : h.cell self = some x) {sched : List Nat} (hs : sched.Perm (List.range es.length)) {rs : List (SimRes z p K)}
    (hrs : (simulateMany O a source pars resid init sched self h).2 = .ok rs) : rs.length = es.length := by
  have := ((C144_results O a hi hx (by rw [hl, hl']; simpa using hs) rs).1 hrs).1
  rw [this, hl, hl']
  simp

/-- The hypotheses of C144 are met by two samples with the bounds `-1` and `-2`, processed backwards; a third sample with an invalid bound raises. -/
theorem C144_hypotheses_met : ∃ (solB : Rat → Model (Fin 1) (Fin 1) (Fin 1) (Fin 1) Rat), (∀ b, Succeeded (Ex1.layB b) Ex1.orc 3 1 (serial 1) (solB b)) ∧
    HeapOK (⟨fun b => if b = 0 then some (-3, false) else none, 1⟩ : Heap (Rat × Bool)) ∧
    (∃ r1 r2, (simulateMany (boundOps solB) ⟨none, (· * ·), true, true⟩ (some ⟨some [-1, -2], some [[fun _ => 1], [fun _ => 2]], some [0, fun _ => 1]⟩)
      none none none [1, 0] 0 ⟨fun b => if b = 0 then some (-3, false) else none, 1⟩).2 = .ok [r1, r2]) ∧
    (simulateMany (boundOps solB) ⟨none, (· * ·), true, true⟩ (some ⟨some [-1, -2], some [[fun _ => 1], [fun _ => 2]], some [0, fun _ => 1]⟩)
      (some [-1, 2]) none none [1, 0] 0 ⟨fun b => if b = 0 then some (-3, false) else none, 1⟩).2 = .error .valueError := by
  obtain ⟨solB, h⟩ := ex1_bounds
  obtain ⟨r1, hr1⟩ := simLoop_linear_ok (h (-1)).1 [fun _ => 1] 0
  obtain ⟨r2, hr2⟩ := simLoop_linear_ok (h (-2)).1 [fun _ => 2] (fun _ => 1)
  refine ⟨solB, fun b => (h b).1, fun b hb => ?_, ⟨r1, r2, ?_⟩, ?_⟩
  · have : b ≠ 0 := by have : 1 ≤ b := hb; omega
    simp [this]
  · refine (C144_results (boundOps solB) _ (ps := [-1, -2]) (es := [[fun _ => 1], [fun _ => 2]]) (xs := [0, fun _ => 1])
      ⟨⟨_, _, rfl, rfl⟩, Or.inr ⟨rfl, _, rfl, rfl⟩, Or.inr ⟨rfl, _, rfl, rfl⟩, Or.inr ⟨rfl, _, rfl, rfl⟩⟩ rfl (List.Perm.swap _ _ _) [r1, r2]).2 ⟨rfl, ?_⟩
    intro i par eps st r' h1 h2 h3 h4
    rcases i with _ | _ | i
    · simp only [List.getElem?_cons_zero, Option.some.injEq] at h1 h2 h3 h4
      subst h1 h2 h3 h4
      exact ⟨by simp [boundOps], hr1⟩
    · simp only [List.getElem?_cons_zero, List.getElem?_cons_succ, Option.some.injEq] at h1 h2 h3 h4
      subst h1 h2 h3 h4
      exact ⟨by simp [boundOps], hr2⟩
    · simp at h1
  · refine (C144_first_exception (boundOps solB) _ (ps := [-1, 2]) (es := [[fun _ => 1], [fun _ => 2]]) (xs := [0, fun _ => 1])
      ⟨⟨_, _, rfl, rfl⟩, Or.inl rfl, Or.inr ⟨rfl, _, rfl, rfl⟩, Or.inr ⟨rfl, _, rfl, rfl⟩⟩ rfl (List.Perm.swap _ _ _) _).2
      ⟨1, 2, _, _, rfl, rfl, rfl, Or.inr ⟨by simp [Spec.MaskFits], Or.inl (by simp [boundOps])⟩, ?_⟩
    intro j hj par' eps' st' h1 h2 h3
    obtain rfl : j = 0 := by omega
    simp only [List.getElem?_cons_zero, Option.some.injEq] at h1 h2 h3
    subst h1 h2 h3
    exact ⟨r1, by simp [boundOps], hr1⟩

end Pydsge
