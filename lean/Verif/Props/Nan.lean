import Verif.Model.Nan
import Verif.Props.Growth

/-!
# C170: states and shocks that are not numbers
-/

set_option autoImplicit false
set_option linter.unusedSectionVars false
set_option linter.unusedSimpArgs false

namespace Pydsge

open Matrix Pydsge.Engine Pydsge.Spec Pydsge.Tools Pydsge.GenSys Pydsge.Nan

namespace Spec

/-- An entry is NaN. -/
def HasNaN {ι K : Type} (x : ι → Option K) : Prop := ∃ i, x i = none

/-- All entries are NaN. -/
def AllNaN {ι K : Type} (x : ι → Option K) : Prop := ∀ i, x i = none

end Spec

/-! ## Without NaN it is the transition of before -/

section
variable {q K : Type} [Fintype q] [DecidableEq q] [Field K] [LinearOrder K]

theorem dotN_some (a s : q → K) (t : K) : dotN a (fun i => some (s i)) t = some (a ⬝ᵥ s + t) := by
  unfold dotN
  simp

theorem dotN_none (a : q → K) {s : q → Option K} (h : Spec.HasNaN s) (t : K) : dotN a s t = none := by
  obtain ⟨i, hi⟩ := h
  unfold dotN
  rw [if_neg]
  intro h'
  have := h' i
  rw [hi] at this
  cases this

/-- `rd'` reads the numbers that `rd` reads. -/
def Lifts (rd : Reader K) (rd' : ReaderN K) : Prop := ∀ i l k, rd' i l k = (rd i l k).map some

theorem lifts_checkCnst {p : Type} (t : Tables q p K) (s : q → K) : Lifts (checkCnst t s) (checkCnstN t (fun i => some (s i))) := by
  intro i l k
  unfold checkCnst checkCnstN
  split
  · cases t.b l k i with
    | none => rfl
    | some row => simp only [dotN_some]; rfl
  · rfl

theorem slackLoopN_eq {rd : Reader K} {rd' : ReaderN K} (h : Lifts rd rd') (xbar : K) (L l : Nat) :
    slackLoopN rd' xbar L l = slackLoop rd xbar L l := by
  fun_induction slackLoop rd xbar L l with
  | case1 l hl e he => rw [slackLoopN, if_pos hl, h, he]; rfl
  | case2 l hl v hv hx hL => rw [slackLoopN, if_pos hl, h, hv]; simp only [Except.map, above, hx, decide_true, if_true, hL]
  | case3 l hl v hv hx hL ih => rw [slackLoopN, if_pos hl, h, hv]; simp only [Except.map, above, hx, decide_true, if_true, hL, if_false, ih]
  | case4 l hl v hv hx => rw [slackLoopN, if_pos hl, h, hv]; simp only [Except.map, above, hx, decide_false, if_false, Bool.false_eq_true]
  | case5 l hl => rw [slackLoopN, if_neg hl]

theorem acceptsN_eq {rd : Reader K} {rd' : ReaderN K} (h : Lifts rd rd') (xbar : K) (l k : Nat) : acceptsN rd' xbar l k = accepts rd xbar l k := by
  unfold acceptsN accepts
  simp only [h _ _ _]
  cases rd 0 l k <;> cases rd 1 l k <;> cases rd 2 l k <;> cases rd 3 l k <;> cases rd 4 l k <;>
    simp [Except.map, above, below, bind, Except.bind, pure, Except.pure]

theorem bruiteKN_eq {rd : Reader K} {rd' : ReaderN K} (h : Lifts rd rd') (xbar : K) (Kk l k : Nat) :
    bruiteKN rd' xbar Kk l k = bruiteK rd xbar Kk l k := by
  fun_induction bruiteK rd xbar Kk l k with
  | case1 k hk e he => rw [bruiteKN, if_pos hk, acceptsN_eq h, he]
  | case2 k hk he => rw [bruiteKN, if_pos hk, acceptsN_eq h, he]
  | case3 k hk he ih => rw [bruiteKN, if_pos hk, acceptsN_eq h, he]; exact ih
  | case4 k hk => rw [bruiteKN, if_neg hk]

theorem bruiteLN_eq {rd : Reader K} {rd' : ReaderN K} (h : Lifts rd rd') (xbar : K) (L Kk l : Nat) :
    bruiteLN rd' xbar L Kk l = bruiteL rd xbar L Kk l := by
  fun_induction bruiteL rd xbar L Kk l with
  | case1 l hl e he => rw [bruiteLN, if_pos hl, bruiteKN_eq h, he]
  | case2 l hl r he => rw [bruiteLN, if_pos hl, bruiteKN_eq h, he]
  | case3 l hl he ih => rw [bruiteLN, if_pos hl, bruiteKN_eq h, he]; exact ih
  | case4 l hl => rw [bruiteLN, if_neg hl]

theorem approxLoopN_eq {rd : Reader K} {rd' : ReaderN K} (h : Lifts rd rd') (xbar : K) (Kk : Nat) :
    ∀ (n k : Nat) (lt : Bool), Kk - k ≤ n → approxLoopN rd' xbar Kk k lt = approxLoop rd xbar Kk k lt
  | 0, k, lt, hn => by
    rw [approxLoopN, approxLoop, if_neg (by omega), if_neg (by omega)]
  | n + 1, k, lt, hn => by
    rw [approxLoopN, approxLoop]
    by_cases hk : k + 1 < Kk
    · rw [if_pos hk, if_pos hk, h]
      cases rd 4 0 (k + 1) with
      | error e => rfl
      | ok v =>
        simp only [Except.map]
        have ih := fun lt => approxLoopN_eq h xbar Kk n (k + 1) lt (by omega)
        simp only [ih, above, below, decide_eq_true_eq]
    · rw [if_neg hk, if_neg hk]

theorem findLkN_eq {rd : Reader K} {rd' : ReaderN K} (h : Lifts rd rd') (xbar : K) (L Kk : Nat) : findLkN rd' xbar L Kk = findLk rd xbar L Kk := by
  unfold findLkN findLk bruiteWrapperN bruiteWrapper
  rw [slackLoopN_eq h, bruiteLN_eq h, approxLoopN_eq h xbar Kk _ _ _ (Nat.le_refl _)]
  rfl

end

variable {E ν ε o K : Type} [Fintype E] [Fintype ν] [Fintype ε] [Fintype o]
  [DecidableEq E] [DecidableEq ν] [DecidableEq ε] [Field K] [LinearOrder K] [IsStrictOrderedRing K]
variable {H z p : Type} [DecidableEq H] [Fintype H] [Fintype z] [Fintype p] [DecidableEq z] [DecidableEq p]
variable {tol : K} {m : Input E ν ε o K} [DecidablePred (inall tol m)] {lay : Layout tol m H z p}
  {orc : Oracle (Rows E H ε) (z ⊕ ε) p K} {lMax kMax : Nat} {sched : Nat → List Nat} {mod : Model z ε p o K}

def Step.lift (r : Step z p K) : Step z p (Option K) := ⟨fun i => some (r.state i), r.l, r.k, r.flag⟩

/-- Numbers give numbers: without NaN, this is the transition of all other claims. -/
theorem C170_numbers (mod : Model z ε p o K) (st : p ⊕ z → K) (e : ε → K) (sk : SetK) (linear : Bool) :
    tFuncN mod (fun i => some (st i)) (fun i => some (e i)) sk linear = (tFunc mod st e sk linear).map Step.lift := by
  have hs : (Sum.elim (fun i => some (st (.inr i))) (fun i => some (e i)) : z ⊕ ε → Option K) =
      fun i => some ((Sum.elim (fun i => st (.inr i)) e : z ⊕ ε → K) i) := by
    funext i; rcases i with i | i <;> rfl
  unfold tFuncN tFunc tFuncRaw
  by_cases hz : Fintype.card z = 0 ∧ Fintype.card p ≠ 0
  · rw [if_pos hz, if_pos hz]; rfl
  · rw [if_neg hz, if_neg hz, hs]
    unfold tFuncJitN tFuncJit
    rw [findLkN_eq (lifts_checkCnst mod.tables _)]
    generalize setLK linear sk = slk
    obtain ⟨sl, sk'⟩ := slk
    simp only
    split_ifs with h1
    · cases findLk (checkCnst mod.tables (Sum.elim (fun i => st (.inr i)) e)) mod.xbar mod.tables.L mod.tables.Kk with
      | error er => rfl
      | ok r =>
        obtain ⟨l, k, flag⟩ := r
        simp only
        cases mod.tables.pq l k with
        | none => rfl
        | some c =>
          simp only [dotN_some, Except.map, Step.lift]
          congr 2
          funext i
          rcases i with i | i <;> rfl
    · cases pyIdx mod.tables.L sl with
      | error er => rfl
      | ok l =>
        cases pyIdx mod.tables.Kk sk' with
        | error er => rfl
        | ok k =>
          simp only
          cases mod.tables.pq l k with
          | none => rfl
          | some c =>
            simp only [dotN_some, Except.map, Step.lift]
            congr 2
            funext i
            rcases i with i | i <;> rfl

theorem hasNaN_q0 {st : p ⊕ z → Option K} {e : ε → Option K} (h : Spec.HasNaN (fun i : z => st (.inr i)) ∨ Spec.HasNaN e) :
    Spec.HasNaN (Sum.elim (fun i => st (.inr i)) e : z ⊕ ε → Option K) := by
  rcases h with ⟨i, h⟩ | ⟨i, h⟩
  · exact ⟨.inl i, h⟩
  · exact ⟨.inr i, h⟩

/-- With NaN, the search takes the spell `(0,1)`, without an error flag. -/
theorem find_nan (h : Succeeded lay orc lMax kMax sched mod) (hk : 0 < kMax) {s : z ⊕ ε → Option K} (hs : Spec.HasNaN s) :
    findLkN (checkCnstN mod.tables s) mod.xbar mod.tables.L mod.tables.Kk = .ok (0, 1, 0) := by
  obtain ⟨c, hm⟩ := genSys_ok h.perm h.gen
  obtain ⟨M', hS⟩ := hm.eng
  rw [hS.shapeL, hS.shapeK]
  have hrd : ∀ (i : Fin 5) (l k : Nat), l < lMax + 1 → k < kMax + 1 → (i = 1 → 0 < l) → (i = 3 → 0 < l + k) →
      checkCnstN mod.tables s i l k = .ok none := by
    intro i l k hl hk h1 h3
    have := checkCnst_reads hS (fun _ => (0 : K)) i l k hl hk h1 h3
    unfold checkCnst at this
    unfold checkCnstN
    rw [hS.shapeL, hS.shapeK, if_pos ⟨hl, hk⟩] at this ⊢
    cases hb : mod.tables.b l k i with
    | none => rw [hb] at this; cases this
    | some row => simp only [dotN_none _ hs]
  have h1 : slackLoopN (checkCnstN mod.tables s) mod.xbar (lMax + 1) 0 = .ok 0 := by
    rw [slackLoopN, if_pos (by omega), hrd 2 0 0 (by omega) (by omega) (by decide) (by decide)]
    simp [above]
  have h2 : acceptsN (checkCnstN mod.tables s) mod.xbar 0 1 = .ok true := by
    unfold acceptsN
    rw [hrd 4 0 1 (by omega) (by omega) (by decide) (by decide), hrd 2 0 1 (by omega) (by omega) (by decide) (by decide)]
    simp [above, below, bind, Except.bind, pure, Except.pure]
  have h3 : bruiteWrapperN (checkCnstN mod.tables s) mod.xbar (lMax + 1) (kMax + 1) = .ok (0, 1) := by
    unfold bruiteWrapperN
    rw [bruiteLN, if_pos (by omega), bruiteKN, if_pos (by omega), h2]
  unfold findLkN
  rw [h1, h3]
  simp

/-- **C170** (holds for the values): if one of the states that matter or one of the shocks is NaN, the transition does not raise, and all entries
of the new state are NaN: NaN never turns into a number. **But** the error flag is 0, and the reported spell is `(0,1)`. -/
theorem C170_transition_partial (h : Succeeded lay orc lMax kMax sched mod) (hk : 0 < kMax) {st : p ⊕ z → Option K} {e : ε → Option K}
    (hn : Spec.HasNaN (fun i : z => st (.inr i)) ∨ Spec.HasNaN e) (linear : Bool) :
    ∃ r, tFuncN mod st e .none linear = .ok r ∧ Spec.AllNaN r.state ∧ r.flag = 0 ∧ (r.l, r.k) = (0, if linear then 0 else 1) := by
  have hz := h.states
  have hs := hasNaN_q0 hn
  obtain ⟨c, hm⟩ := genSys_ok h.perm h.gen
  obtain ⟨M', hS⟩ := hm.eng
  have hz' : ¬ (Fintype.card z = 0 ∧ Fintype.card p ≠ 0) := by
    have := Fintype.card_ne_zero (α := z); tauto
  have key : ∀ l k, l < lMax + 1 → k < kMax + 1 → mod.tables.pq l k = some (c l k) := fun l k hl hk => hS.complete.filled l k hl hk
  unfold tFuncN
  rw [if_neg hz']
  unfold tFuncJitN
  cases linear with
  | false =>
    simp only [setLK, Bool.false_eq_true, if_false, if_true]
    rw [find_nan h hk hs]
    simp only
    rw [key 0 1 (by omega) (by omega)]
    refine ⟨_, rfl, ?_, rfl, rfl⟩
    rintro (i | i) <;> exact dotN_none _ hs _
  | true =>
    have i1 : pyIdx mod.tables.L 0 = .ok 0 := by rw [hS.shapeL]; simp [pyIdx]
    have i2 : pyIdx mod.tables.Kk 0 = .ok 0 := by rw [hS.shapeK]; simp [pyIdx]
    simp only [setLK, if_true, i1, i2]
    rw [if_neg (by decide)]
    simp only
    rw [key 0 0 (by omega) (by omega)]
    refine ⟨_, rfl, ?_, rfl, rfl⟩
    rintro (i | i) <;> exact dotN_none _ hs _

theorem simLoopN_head {linear : Bool} {st : p ⊕ z → Option K} {es : List (ε → Option K)} {res : SimRes z p (Option K)}
    (h : simLoopN mod linear st es = .ok res) : ∃ t, res.X = st :: t := by
  cases es with
  | nil => simp only [simLoopN] at h; cases h; exact ⟨_, rfl⟩
  | cons e' es' =>
    simp only [simLoopN] at h
    split at h
    · cases h
    · split at h
      · cases h
      · cases h; exact ⟨_, rfl⟩

/-- **C170** (holds for the values), simulations: from the first NaN on, all states are NaN in all entries. -/
theorem C170_simulations_partial (h : Succeeded lay orc lMax kMax sched mod) (hk : 0 < kMax) (linear : Bool) :
    ∀ (es : List (ε → Option K)) (st : p ⊕ z → Option K), Spec.HasNaN (fun i : z => st (.inr i)) →
      ∃ res, simLoopN mod linear st es = .ok res ∧ res.X.length = es.length + 1 ∧ (∀ s ∈ res.X.tail, Spec.AllNaN s) ∧ res.flag = 0
  | [], st, _ => ⟨_, rfl, rfl, by simp, rfl⟩
  | e :: es, st, hn => by
    have hz := h.states
    obtain ⟨r, h1, h2, h3, -⟩ := C170_transition_partial h hk (.inl hn : _ ∨ Spec.HasNaN e) linear
    obtain ⟨res, h4, h5, h6, h7⟩ := C170_simulations_partial h hk linear es r.state ⟨Classical.arbitrary z, h2 _⟩
    refine ⟨⟨st :: res.X, (r.l, r.k) :: res.LK, r.flag ||| res.flag⟩, by simp only [simLoopN, h1, h4], by simp [h5], ?_, by simp [h3, h7]⟩
    obtain ⟨t, ht⟩ := simLoopN_head h4
    intro s hs
    simp only [List.tail_cons, ht, List.mem_cons] at hs
    rcases hs with rfl | hs
    · exact h2
    · exact h6 s (by simpa [ht] using hs)

/-- Numbers give numbers, simulations. -/
theorem C170_numbers_simulate (mod : Model z ε p o K) (linear : Bool) : ∀ (es : List (ε → K)) (st : p ⊕ z → K),
    simLoopN mod linear (fun i => some (st i)) (es.map fun e i => some (e i)) =
      (simLoop mod linear st es).map fun r => ⟨r.X.map fun x i => some (x i), r.LK, r.flag⟩
  | [], st => rfl
  | e :: es, st => by
    simp only [List.map_cons, simLoopN, simLoop, C170_numbers]
    cases tFunc mod st e .none linear with
    | error er => rfl
    | ok r =>
      simp only [Except.map, Step.lift]
      rw [C170_numbers_simulate mod linear es r.state]
      cases simLoop mod linear r.state es with
      | error er => rfl
      | ok res => rfl

/-- Numbers give numbers, observables. -/
theorem C170_numbers_observables (mod : Model z ε p o K) (st : p ⊕ z → K) :
    oFuncN mod (fun i => some (st i)) = fun i => some (oFunc mod st i) := by
  funext i
  unfold oFuncN
  rw [dotN_some]
  simp only [oFunc, Pi.add_apply, vecMul_transpose, mulVec, dotProduct, Fintype.sum_sum_type, Sum.elim_inl, Sum.elim_inr]

/-- The controls of the last period do not matter. -/
theorem tFuncN_congr (mod : Model z ε p o K) {st st' : p ⊕ z → Option K} (h : ∀ i, st (.inr i) = st' (.inr i)) (e : ε → Option K) (sk : SetK)
    (linear : Bool) : tFuncN mod st e sk linear = tFuncN mod st' e sk linear := by
  unfold tFuncN
  have : (fun i => st (.inr i)) = fun i => st' (.inr i) := funext h
  rw [this]

theorem numbers_of_not {ι : Type} {x : ι → Option K} (h : ¬ Spec.HasNaN x) : x = fun i => some ((x i).getD 0) := by
  funext i
  cases hx : x i with
  | none => exact absurd ⟨i, hx⟩ h
  | some v => rfl

/-- **C170** (holds for the values), all simulations: with NaN anywhere in states or shocks, a simulation does not raise, and after a shock that
is NaN all states are NaN in all entries. -/
theorem C170_after_shock_partial (h : Succeeded lay orc lMax kMax sched mod) (hk : 0 < kMax) (linear : Bool) :
    ∀ (es : List (ε → Option K)) (st : p ⊕ z → Option K), ∃ res, simLoopN mod linear st es = .ok res ∧ res.X.length = es.length + 1 ∧
      ∀ (t : Nat) e, es[t]? = some e → Spec.HasNaN e → ∀ (s : Nat) x, t < s → res.X[s]? = some x → Spec.AllNaN x
  | [], st => ⟨_, rfl, rfl, by simp⟩
  | e :: es, st => by
    have hz := h.states
    by_cases hn : Spec.HasNaN (fun i : z => st (.inr i)) ∨ Spec.HasNaN e
    · obtain ⟨r, h1, h2, -⟩ := C170_transition_partial h hk hn linear
      obtain ⟨res, h3, h4, h5, -⟩ := C170_simulations_partial h hk linear es r.state ⟨Classical.arbitrary z, h2 _⟩
      refine ⟨⟨st :: res.X, (r.l, r.k) :: res.LK, r.flag ||| res.flag⟩, by simp only [simLoopN, h1, h3], by simp [h4], ?_⟩
      intro t e' _ _ s x hs hx
      obtain ⟨s, rfl⟩ : ∃ s', s = s' + 1 := ⟨s - 1, by omega⟩
      simp only [List.getElem?_cons_succ] at hx
      obtain ⟨X', hX⟩ := simLoopN_head h3
      rw [hX] at hx h5
      cases s with
      | zero => simp only [List.getElem?_cons_zero, Option.some.injEq] at hx; rw [← hx]; exact h2
      | succ s =>
        simp only [List.getElem?_cons_succ] at hx
        exact h5 x (List.mem_of_getElem? hx)
    · rw [not_or] at hn
      have e1 := numbers_of_not hn.1
      have e2 := numbers_of_not hn.2
      have e3 : tFuncN mod st e .none linear = (tFunc mod (fun i => (st i).getD 0) (fun i => (e i).getD 0) .none linear).map Step.lift := by
        rw [← C170_numbers, ← e2]
        exact tFuncN_congr mod (fun i => congrFun e1 i) e .none linear
      obtain ⟨M, -, hM⟩ := C168_transition_bounded h hk
      have hd : ∃ d : K, Spec.Within d (fun i : z => (st (.inr i)).getD 0) ∧ Spec.Within d (fun i => (e i).getD 0) := by
        refine ⟨size1 (fun i : z => (st (.inr i)).getD 0) + size1 (fun i => (e i).getD 0), fun i => ?_, fun i => ?_⟩
        · have := abs_le_size1 (fun i : z => (st (.inr i)).getD 0) i
          have := size1_nonneg (fun i => (e i).getD 0)
          linarith
        · have := abs_le_size1 (fun i => (e i).getD 0) i
          have := size1_nonneg (fun i : z => (st (.inr i)).getD 0)
          linarith
      obtain ⟨d, d1, d2⟩ := hd
      obtain ⟨r, hr, -⟩ := (hM (fun i => (st i).getD 0) (fun i => (e i).getD 0) d d1 d2).1 linear
      rw [hr] at e3
      obtain ⟨res, h3, h4, h5⟩ := C170_after_shock_partial h hk linear es (Step.lift r).state
      refine ⟨⟨st :: res.X, ((Step.lift r).l, (Step.lift r).k) :: res.LK, (Step.lift r).flag ||| res.flag⟩, by
        simp only [simLoopN, e3, Except.map, h3], by simp [h4], ?_⟩
      intro t e' ht he s x hs hx
      obtain ⟨s, rfl⟩ : ∃ s', s = s' + 1 := ⟨s - 1, by omega⟩
      cases t with
      | zero =>
        simp only [List.getElem?_cons_zero, Option.some.injEq] at ht
        subst ht
        exact absurd he hn.2
      | succ t => exact h5 t e' (by simpa using ht) he s x (by omega) (by simpa using hx)

/-- Observables of a state with NaN are NaN. -/
theorem C170_observables (mod : Model z ε p o K) {st : p ⊕ z → Option K} (h : Spec.HasNaN st) : Spec.AllNaN (oFuncN mod st) :=
  fun _ => dotN_none _ h _

/-- **C170** (the claim on the flag fails for every solved model): states that are not numbers are simulated without an error flag, as an
economy whose constraint binds for one period at a time. -/
theorem C170_flag_refuted (h : Succeeded lay orc lMax kMax sched mod) (hk : 0 < kMax) (e : ε → Option K) :
    ∃ r, tFuncN mod (fun _ => none) e .none false = .ok r ∧ Spec.AllNaN r.state ∧ r.flag = 0 ∧ r.k = 1 := by
  have hz := h.states
  obtain ⟨r, h1, h2, h3, h4⟩ := C170_transition_partial (mod := mod) (st := fun _ => none) h hk (.inl ⟨Classical.arbitrary z, rfl⟩ : _ ∨ Spec.HasNaN e) false
  exact ⟨r, h1, h2, h3, congrArg Prod.snd h4⟩

/-- The hypotheses of C170 are met: the first example with tables up to `(0,1)`, from the steady state, with a shock that is NaN. -/
theorem C170_hypotheses_met : ∃ mod, Succeeded Ex1.lay Ex1.orc 0 1 (serial 1) mod ∧ Spec.HasNaN (fun _ : Fin 1 => (none : Option Rat)) := by
  obtain ⟨mod, h⟩ := ex1_succeeds 0 1
  exact ⟨mod, h, 0, rfl⟩

end Pydsge
