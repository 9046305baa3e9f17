import Verif.Props.Engine

/-!
# C19, C20, C22, C70: `simulate` and `obs`
-/

set_option autoImplicit false
set_option linter.unusedSectionVars false
set_option linter.unusedSimpArgs false

namespace Pydsge

open Matrix Pydsge.Engine Pydsge.Spec Pydsge.Tools Pydsge.GenSys

variable {z ε p o K : Type} [Fintype z] [Fintype ε] [Fintype p] [Fintype o] [DecidableEq z] [DecidableEq ε] [DecidableEq p]
  [Field K] [LinearOrder K]

/-- `X`, `LK` and `fl` are states, equilibria and flags of a simulation that starts in `st` and iterates the transition
function over the residuals `es`. -/
structure Iterates (m : Model z ε p o K) (linear : Bool) (st : p ⊕ z → K) (es : List (ε → K)) (X : List (p ⊕ z → K))
    (LK : List (Nat × Nat)) (fl : List Nat) : Prop where
  lenX : X.length = es.length + 1
  lenLK : LK.length = es.length
  lenF : fl.length = es.length
  init : X[0]? = some st
  step : ∀ i e, es[i]? = some e → ∃ x r, X[i]? = some x ∧ tFunc m x e .none linear = .ok r ∧ X[i+1]? = some r.state ∧
    LK[i]? = some (r.l, r.k) ∧ fl[i]? = some r.flag

theorem or_ne_zero (a b : Nat) : a ||| b ≠ 0 ↔ a ≠ 0 ∨ b ≠ 0 := by
  rw [Ne, Nat.or_eq_zero_iff]; tauto

/-- **C19**: `simulate` returns the iterated transition function, the `(l,k)` found on the way, and a flag that is nonzero iff
some transition had a nonzero flag. -/
theorem C19_simulate_iterates (m : Model z ε p o K) (linear : Bool) (st : p ⊕ z → K) (es : List (ε → K)) (res : SimRes z p K) :
    simLoop m linear st es = .ok res → ∃ fl, Iterates m linear st es res.X res.LK fl ∧ (res.flag ≠ 0 ↔ ∃ f ∈ fl, f ≠ 0) := by
  induction es generalizing st res with
  | nil =>
    intro h
    simp only [simLoop, Except.ok.injEq] at h
    subst h
    exact ⟨[], ⟨rfl, rfl, rfl, rfl, fun i e h => by simp at h⟩, by simp⟩
  | cons e es ih =>
    intro h
    unfold simLoop at h
    cases hr : tFunc m st e .none linear with
    | error err => simp only [hr] at h; cases h
    | ok r =>
      simp only [hr] at h
      cases hl : simLoop m linear r.state es with
      | error err => simp only [hl] at h; cases h
      | ok res' =>
        simp only [hl, Except.ok.injEq] at h
        subst h
        obtain ⟨fl, hI, hF⟩ := ih r.state res' hl
        refine ⟨r.flag :: fl, ⟨by simp [hI.lenX], by simp [hI.lenLK], by simp [hI.lenF], rfl, ?_⟩, ?_⟩
        · intro i e' he
          cases i with
          | zero =>
            simp only [List.getElem?_cons_zero, Option.some.injEq] at he
            subst he
            exact ⟨st, r, rfl, hr, by simpa using hI.init, rfl, rfl⟩
          | succ i =>
            simp only [List.getElem?_cons_succ] at he ⊢
            exact hI.step i e' he
        · rw [or_ne_zero, hF]
          simp

/-- The converse: whatever iterates the transition function is what `simulate` returns. -/
theorem C19_simulate_complete (m : Model z ε p o K) (linear : Bool) (st : p ⊕ z → K) (es : List (ε → K)) (X : List (p ⊕ z → K))
    (LK : List (Nat × Nat)) (fl : List Nat) (h : Iterates m linear st es X LK fl) :
    ∃ flag, simLoop m linear st es = .ok ⟨X, LK, flag⟩ := by
  induction es generalizing st X LK fl with
  | nil =>
    obtain ⟨h1, h2, h3, h4, -⟩ := h
    obtain ⟨x, rfl⟩ := List.length_eq_one_iff.1 h1
    simp only [List.getElem?_cons_zero, Option.some.injEq] at h4
    have h2' : LK = [] := List.length_eq_zero_iff.1 h2
    subst h4 h2'
    exact ⟨0, rfl⟩
  | cons e es ih =>
    obtain ⟨h1, h2, h3, h4, h5⟩ := h
    cases X with
    | nil => simp at h1
    | cons x X =>
      cases LK with
      | nil => simp at h2
      | cons lk LK =>
        cases fl with
        | nil => simp at h3
        | cons f fl =>
          obtain ⟨x0, r, a1, a2, a3, a4, a5⟩ := h5 0 e rfl
          simp only [List.getElem?_cons_zero, Option.some.injEq, List.getElem?_cons_succ] at h4 a1 a3 a4
          subst a1 h4 a4
          obtain ⟨fg, hf⟩ := ih r.state X LK fl ⟨by simpa using h1, by simpa using h2, by simpa using h3, by simpa using a3,
            fun i e' he => by
              obtain ⟨y, r', b⟩ := h5 (i + 1) e' (by simpa using he)
              exact ⟨y, r', by simpa using b⟩⟩
          exact ⟨r.flag ||| fg, by simp only [simLoop, a2, hf]⟩

/-- **C19**, splitting: simulating in two parts, the second from the last state of the first, gives the same as in one go. -/
theorem C19_simulate_split (m : Model z ε p o K) (linear : Bool) (st : p ⊕ z → K) (es fs : List (ε → K)) (res : SimRes z p K) :
    simLoop m linear st (es ++ fs) = .ok res ↔
      ∃ r1 r2 mid, simLoop m linear st es = .ok r1 ∧ r1.X.getLast? = some mid ∧ simLoop m linear mid fs = .ok r2 ∧
        res.X = r1.X ++ r2.X.tail ∧ res.LK = r1.LK ++ r2.LK ∧ res.flag = r1.flag ||| r2.flag := by
  have hhead : ∀ (es : List (ε → K)) st res, simLoop m linear st es = .ok res → ∃ T, res.X = st :: T := by
    intro es st res h
    obtain ⟨fl, hI, _⟩ := C19_simulate_iterates m linear st es res h
    have := hI.init
    cases hX : res.X with
    | nil => rw [hX] at this; cases this
    | cons x T =>
      rw [hX] at this
      simp only [List.getElem?_cons_zero, Option.some.injEq] at this
      exact ⟨T, by rw [this]⟩
  induction es generalizing st res with
  | nil =>
    simp only [List.nil_append, simLoop, Except.ok.injEq]
    constructor
    · intro h
      obtain ⟨T, hT⟩ := hhead fs st res h
      exact ⟨_, res, st, rfl, rfl, h, by simp [hT], by simp, by simp⟩
    · rintro ⟨r1, r2, mid, rfl, h2, h3, h4, h5, h6⟩
      simp only [List.getLast?_singleton, Option.some.injEq] at h2
      subst h2
      obtain ⟨T, hT⟩ := hhead fs st r2 h3
      rw [h3]
      have : res = r2 := by
        cases res; cases r2
        simp only [hT, List.tail_cons, List.singleton_append, List.nil_append, Nat.zero_or] at h4 h5 h6
        simp_all
      rw [this]
  | cons e es ih =>
    rw [List.cons_append]
    cases hr : tFunc m st e .none linear with
    | error err => simp [simLoop, hr]
    | ok r =>
      constructor
      · intro h
        simp only [simLoop, hr] at h
        cases hl : simLoop m linear r.state (es ++ fs) with
        | error err => simp only [hl] at h; cases h
        | ok res' =>
          simp only [hl, Except.ok.injEq] at h
          obtain ⟨r1, r2, mid, a1, a2, a3, a4, a5, a6⟩ := (ih r.state res').1 hl
          refine ⟨⟨st :: r1.X, (r.l, r.k) :: r1.LK, r.flag ||| r1.flag⟩, r2, mid, by simp only [simLoop, hr, a1], ?_, a3, ?_, ?_, ?_⟩
          · simp only
            rw [List.getLast?_cons]
            simp [a2]
          · rw [← h]; simp [a4]
          · rw [← h]; simp [a5]
          · rw [← h]; simp [a6, Nat.or_assoc]
      · rintro ⟨r1, r2, mid, a1, a2, a3, a4, a5, a6⟩
        simp only [simLoop, hr] at a1 ⊢
        cases hl : simLoop m linear r.state es with
        | error err => simp only [hl] at a1; cases a1
        | ok res' =>
          simp only [hl, Except.ok.injEq] at a1
          obtain ⟨T, hT⟩ := hhead es r.state res' hl
          have hmid : res'.X.getLast? = some mid := by
            rw [← a1] at a2
            simp only [List.getLast?_cons] at a2
            rw [hT] at a2 ⊢
            rw [List.getLast?_cons] at a2 ⊢
            simpa using a2
          have := (ih r.state ⟨res'.X ++ r2.X.tail, res'.LK ++ r2.LK, res'.flag ||| r2.flag⟩).2
            ⟨res', r2, mid, hl, hmid, a3, rfl, rfl, rfl⟩
          rw [this]
          cases res
          simp only at a4 a5 a6
          simp only [a4, a5, a6, ← a1, List.cons_append, Nat.or_assoc]

/-- **C19**, mask: the residual of period `i` and shock `e` is replaced by `operation(mask, residual)` exactly where the mask is
not NaN. -/
theorem C19_mask (m : Model z ε p o K) (linear : Bool) (op : K → K → K) (ms : List (ε → Option K)) (st : p ⊕ z → K)
    (es : List (ε → K)) (hlen : ms.length = es.length) :
    ∃ es' : List (ε → K), es'.length = es.length ∧
      simulate m linear (some ms) op st es = simulate m linear none op st es' ∧
      ∀ (i : Nat) (mk : ε → Option K) (e e' : ε → K), ms[i]? = some mk → es[i]? = some e → es'[i]? = some e' → ∀ j,
        (mk j = none → e' j = e j) ∧ ∀ x, mk j = some x → e' j = op x (e j) := by
  refine ⟨List.zipWith (fun mk e i => applyMask op (mk i) (e i)) ms es, by simp [hlen], by simp only [simulate, masked, maskEps, hlen, if_true], ?_⟩
  intro i mk e e' h1 h2 h3 j
  rw [List.getElem?_zipWith_eq_some] at h3
  obtain ⟨mk', e2, g1, g2, g3⟩ := h3
  rw [h1] at g1; rw [h2] at g2
  cases g1; cases g2
  subst g3
  constructor
  · intro h; simp [applyMask, h]
  · intro x h; simp [applyMask, h]

/-- **C19**, mask with another number of rows: a single row is used in every period, a single residual is used with every row of the mask,
and anything else raises. -/
theorem C19_mask_rows (m : Model z ε p o K) (linear : Bool) (op : K → K → K) (ms : List (ε → Option K)) (st : p ⊕ z → K)
    (es : List (ε → K)) :
    (∀ mk, ms = [mk] → simulate m linear (some ms) op st es =
      simulate m linear none op st (es.map fun e j => applyMask op (mk j) (e j))) ∧
    (∀ e, es = [e] → simulate m linear (some ms) op st es =
      simulate m linear none op st (ms.map fun mk j => applyMask op (mk j) (e j))) ∧
    (ms.length ≠ es.length → ms.length ≠ 1 → es.length ≠ 1 → simulate m linear (some ms) op st es = .error .valueError) := by
  refine ⟨?_, ?_, ?_⟩
  · rintro mk rfl
    by_cases h : [mk].length = es.length
    · obtain ⟨e, rfl⟩ := List.length_eq_one_iff.1 h.symm
      rfl
    · simp only [simulate, masked, maskEps, h, if_false]
  · rintro e rfl
    by_cases h : ms.length = [e].length
    · obtain ⟨mk, rfl⟩ := List.length_eq_one_iff.1 h
      rfl
    · simp only [simulate, masked, maskEps, h, if_false]
      rcases ms with _ | ⟨a, _ | ⟨b, r⟩⟩
      · rfl
      · exact absurd rfl h
      · rfl
  · intro h h1 h2
    simp only [simulate, masked, maskEps, h, if_false]
    rcases ms with _ | ⟨a, _ | ⟨b, r⟩⟩
    · rcases es with _ | ⟨c, _ | ⟨d, r'⟩⟩
      · exact absurd rfl h
      · exact absurd rfl h2
      · rfl
    · exact absurd rfl h1
    · rcases es with _ | ⟨c, _ | ⟨d, r'⟩⟩
      · rfl
      · exact absurd rfl h2
      · rfl

/-- The three cases of C19_mask_rows occur: a single row for two periods, two rows for one residual, two rows for three periods. -/
example : maskEps (ε := Fin 1) (· * ·) [fun _ => some (2 : Rat)] [fun _ => 1, fun _ => 3] = .ok [fun _ => 2, fun _ => 6] ∧
    maskEps (ε := Fin 1) (· * ·) [fun _ => some (2 : Rat), fun _ => none] [fun _ => 3] = .ok [fun _ => 6, fun _ => 3] ∧
    maskEps (ε := Fin 1) (· * ·) [fun _ => some (2 : Rat), fun _ => none] [fun _ => 1, fun _ => 2, fun _ => 3] = .error .valueError := by
  refine ⟨?_, ?_, rfl⟩ <;> norm_num [maskEps, applyMask]

/-- **C20**: the observables returned by `t_func(get_obs=True)` are those that `obs` computes from the state that `t_func`
returns otherwise, and the states agree. -/
theorem C20_observables_agree (m : Model z ε p o K) (st : p ⊕ z → K) (e : ε → K) (sk : SetK) (linear : Bool) :
    (∀ r, tFunc m st e sk linear = .ok r → tFuncObs m st e sk linear = .ok (fun i => r.state (.inr i), oFunc m r.state)) ∧
    (∀ err, tFunc m st e sk linear = .error err → tFuncObs m st e sk linear = .error err) := by
  unfold tFunc tFuncObs oFunc
  cases tFuncRaw m st e sk linear with
  | error err => simp
  | ok r =>
    constructor
    · intro r' h
      simp only [Except.ok.injEq] at h
      subst h
      simp only [vecMul_transpose]
      rfl
    · intro err h; cases h

/-- **C68** (holds with a single observable and no data loaded): `obs` of one state returns its observables. -/
theorem C68_obs_single_state_partial (m : Model z ε p o K) (ho : Fintype.card o = 1) (st : p ⊕ z → K) :
    oFunc1d m none st = .ok (oFunc m st) := by
  simp [oFunc1d, dataFrame1d, ho]

/-- **C68**, exactly when: one observable, and no data, or data of a single period. -/
theorem C68_obs_single_state_iff (m : Model z ε p o K) (data : Option Nat) (st : p ⊕ z → K) :
    oFunc1d m data st = .ok (oFunc m st) ↔ Fintype.card o = 1 ∧ (data = none ∨ data = some 1) := by
  unfold oFunc1d dataFrame1d
  by_cases ho : Fintype.card o = 1
  · cases data with
    | none => simp [ho]
    | some i => by_cases hi : i = 1 <;> simp [ho, hi]
  · simp [ho]

/-- **C68** refuted: with two or more observables `obs` of one state always raises. -/
theorem C68_obs_single_state_refuted (m : Model z ε p o K) (ho : 2 ≤ Fintype.card o) (data : Option Nat) (st : p ⊕ z → K) :
    oFunc1d m data st = .error .valueError := by
  have : Fintype.card o ≠ 1 := by omega
  simp [oFunc1d, dataFrame1d, this]

/-- **C69** (holds with a source that has parameters): given arguments replace the entries of the source. -/
theorem C69_simulate_arguments_partial {P R I α : Type} (s : SimSource P R I) (hs : s.pars.isSome) (ps : P) (rs : R) (is : I)
    (runs : P → R → I → Except PyErr α) : simulateTop (some s) (some ps) (some rs) (some is) runs = runs ps rs is := by
  obtain ⟨q, hq⟩ := Option.isSome_iff_exists.1 hs
  simp [simulateTop, argOr, hq]

/-- **C69** refuted: without a source `simulate` raises `TypeError` whatever the other arguments are. -/
theorem C69_simulate_arguments_refuted {P R I α : Type} (ps : P) (rs : R) (is : I) (runs : P → R → I → Except PyErr α) :
    simulateTop none (some ps) (some rs) (some is) runs = .error .typeError := rfl

section Intervals
variable [IsStrictOrderedRing K]

/-- An interval is ordered. -/
def Ordered {ι : Type} (iv : (ι → K) × (ι → K) × (ι → K)) : Prop := ∀ i, iv.1 i ≤ iv.2.1 i ∧ iv.2.1 i ≤ iv.2.2 i

theorem interval_ordered {ι : Type} {c : K} (hc : 0 < c) (x std : ι → K) : Ordered (interval c x std) ↔ ∀ i, 0 ≤ std i := by
  unfold Ordered interval
  simp only [Pi.sub_apply, Pi.add_apply, Pi.smul_apply, smul_eq_mul, sub_le_self_iff, le_add_iff_nonneg_right, and_self]
  exact forall_congr' fun i => ⟨fun h => nonneg_of_mul_nonneg_right h hc, fun h => mul_nonneg hc.le h⟩

/-- **C22** (states; observables without negative loadings): the intervals are ordered. -/
theorem C22_intervals_ordered_partial (m : Model z ε p o K) {c : K} (hc : 0 < c) (x std : p ⊕ z → K) (hs : ∀ i, 0 ≤ std i) :
    Ordered (interval c x std) ∧
    ((∀ i j, 0 ≤ m.hx.1 i j) → (∀ i j, 0 ≤ m.hx.2.1 i j) → Ordered (interval c (oFunc m x) (stdObs m std))) := by
  refine ⟨(interval_ordered hc _ _).2 hs, fun h0 h1 => (interval_ordered hc _ _).2 fun i => ?_⟩
  simp only [stdObs, Pi.add_apply, mulVec, dotProduct]
  exact add_nonneg (Finset.sum_nonneg fun j _ => mul_nonneg (h0 i j) (hs _)) (Finset.sum_nonneg fun j _ => mul_nonneg (h1 i j) (hs _))

/-- **C22**, exactly when: the interval of an observable is ordered for all standard deviations of the states if and only if the observable has no
negative loading. -/
theorem C22_intervals_ordered_iff (m : Model z ε p o K) {c : K} (hc : 0 < c) (x : p ⊕ z → K) (i : o) :
    (∀ std : p ⊕ z → K, (∀ a, 0 ≤ std a) →
      (interval c (oFunc m x) (stdObs m std)).1 i ≤ (interval c (oFunc m x) (stdObs m std)).2.1 i ∧
      (interval c (oFunc m x) (stdObs m std)).2.1 i ≤ (interval c (oFunc m x) (stdObs m std)).2.2 i) ↔
    (∀ j, 0 ≤ m.hx.1 i j) ∧ ∀ j, 0 ≤ m.hx.2.1 i j := by
  have hiff : ∀ std : p ⊕ z → K, ((interval c (oFunc m x) (stdObs m std)).1 i ≤ (interval c (oFunc m x) (stdObs m std)).2.1 i ∧
      (interval c (oFunc m x) (stdObs m std)).2.1 i ≤ (interval c (oFunc m x) (stdObs m std)).2.2 i) ↔ 0 ≤ stdObs m std i := by
    intro std
    unfold interval
    simp only [Pi.sub_apply, Pi.add_apply, Pi.smul_apply, smul_eq_mul, sub_le_self_iff, le_add_iff_nonneg_right, and_self]
    exact ⟨fun h => nonneg_of_mul_nonneg_right h hc, fun h => mul_nonneg hc.le h⟩
  simp only [hiff]
  constructor
  · intro h
    refine ⟨fun j => ?_, fun j => ?_⟩
    · have := h (Pi.single (.inl j) 1) (fun a => by rw [Pi.single_apply]; split_ifs <;> norm_num)
      simpa [stdObs, mulVec, dotProduct, Pi.single_apply] using this
    · have := h (Pi.single (.inr j) 1) (fun a => by rw [Pi.single_apply]; split_ifs <;> norm_num)
      simpa [stdObs, mulVec, dotProduct, Pi.single_apply] using this
  · rintro ⟨h0, h1⟩ std hs
    simp only [stdObs, Pi.add_apply, mulVec, dotProduct]
    exact add_nonneg (Finset.sum_nonneg fun j _ => mul_nonneg (h0 j) (hs _)) (Finset.sum_nonneg fun j _ => mul_nonneg (h1 j) (hs _))

/-- The variance of the observable `i` implied by a covariance matrix of the states (measurement equation
`hx[0] p + hx[1] q + hx[2]`). -/
def obsVar (m : Model z ε p o K) (cov : Matrix (p ⊕ z) (p ⊕ z) K) (i : o) : K :=
  let h : p ⊕ z → K := Sum.elim (m.hx.1 i) (m.hx.2.1 i)
  h ⬝ᵥ (cov *ᵥ h)

/-- **C70** (loadings not negative): the half width used for the observables is at least 1.96 times the standard deviation that
the covariance implies. -/
theorem C70_observable_intervals_conservative_partial (m : Model z ε p o K) (cov : Matrix (p ⊕ z) (p ⊕ z) K) (std : p ⊕ z → K)
    (hcs : ∀ a b, cov a b ≤ std a * std b) (i : o) (h0 : ∀ j, 0 ≤ m.hx.1 i j) (h1 : ∀ j, 0 ≤ m.hx.2.1 i j) :
    obsVar m cov i ≤ stdObs m std i ^ 2 := by
  have hh : ∀ a, 0 ≤ (Sum.elim (m.hx.1 i) (m.hx.2.1 i) : p ⊕ z → K) a := by
    rintro (a | a)
    · exact h0 a
    · exact h1 a
  have e : stdObs m std i = ∑ a, (Sum.elim (m.hx.1 i) (m.hx.2.1 i) : p ⊕ z → K) a * std a := by
    simp [stdObs, mulVec, dotProduct, Fintype.sum_sum_type]
  rw [e, sq, Finset.sum_mul_sum]
  unfold obsVar
  simp only [dotProduct, mulVec, Finset.mul_sum]
  refine Finset.sum_le_sum fun a _ => Finset.sum_le_sum fun b _ => ?_
  have := mul_le_mul_of_nonneg_left (hcs a b) (mul_nonneg (hh a) (hh b))
  nlinarith [this]

/-- **C70**, exactly when (loadings not negative): the half width is 1.96 times the standard deviation that the covariance implies if and only if
any two states that the observable loads on are perfectly correlated. -/
theorem C70_observable_intervals_iff (m : Model z ε p o K) (cov : Matrix (p ⊕ z) (p ⊕ z) K) (std : p ⊕ z → K)
    (hcs : ∀ a b, cov a b ≤ std a * std b) (i : o) (h0 : ∀ j, 0 ≤ m.hx.1 i j) (h1 : ∀ j, 0 ≤ m.hx.2.1 i j) :
    obsVar m cov i = stdObs m std i ^ 2 ↔
      ∀ a b, Sum.elim (m.hx.1 i) (m.hx.2.1 i) a ≠ 0 → Sum.elim (m.hx.1 i) (m.hx.2.1 i) b ≠ 0 → cov a b = std a * std b := by
  have hh : ∀ a, 0 ≤ (Sum.elim (m.hx.1 i) (m.hx.2.1 i) : p ⊕ z → K) a := by
    rintro (a | a)
    · exact h0 a
    · exact h1 a
  have e : stdObs m std i = ∑ a, (Sum.elim (m.hx.1 i) (m.hx.2.1 i) : p ⊕ z → K) a * std a := by
    simp [stdObs, mulVec, dotProduct, Fintype.sum_sum_type]
  rw [e, sq, Finset.sum_mul_sum]
  unfold obsVar
  simp only [dotProduct, mulVec, Finset.mul_sum]
  generalize (Sum.elim (m.hx.1 i) (m.hx.2.1 i) : p ⊕ z → K) = w at hh
  have hle : ∀ a b, w a * (cov a b * w b) ≤ w a * std a * (w b * std b) := by
    intro a b
    have := mul_le_mul_of_nonneg_left (hcs a b) (mul_nonneg (hh a) (hh b))
    nlinarith [this]
  rw [Finset.sum_eq_sum_iff_of_le fun a _ => Finset.sum_le_sum fun b _ => hle a b]
  simp only [Finset.mem_univ, true_implies]
  refine forall_congr' fun a => ?_
  rw [Finset.sum_eq_sum_iff_of_le fun b _ => hle a b]
  simp only [Finset.mem_univ, true_implies]
  refine forall_congr' fun b => ⟨fun h ha hb => ?_, fun h => ?_⟩
  · have : (w a * w b) * cov a b = (w a * w b) * (std a * std b) := by linear_combination h
    exact mul_left_cancel₀ (mul_ne_zero ha hb) this
  · by_cases ha : w a = 0
    · rw [ha]; ring
    · by_cases hb : w b = 0
      · rw [hb]; ring
      · rw [h ha hb]; ring

end Intervals

section Examples
open Ex1

theorem ex1_hx {mod : Model (Fin 1) (Fin 1) (Fin 1) (Fin 1) Rat} {lMax kMax : Nat} (h : Succeeded Ex1.lay Ex1.orc lMax kMax (serial kMax) mod) :
    mod.hx = (0, fun _ _ => -2, fun _ => 1) := by
  obtain ⟨c, hm⟩ := genSys_ok h.perm h.gen
  rw [hm.hx]
  refine Prod.ext ?_ (Prod.ext ?_ ?_)
  · ext i j; simp [hx, Ex1.layB, yaml, Input.ofYaml, Z0]
  · ext i j; simp [hx, Ex1.layB, yaml, Input.ofYaml, Z0]
  · ext i; simp [hx, Ex1.layB, yaml, Input.ofYaml, Z1]

/-- **C22** refuted: in the example model the observable `1 - 2 y` has a negative loading, and its interval is upside down. -/
theorem C22_intervals_ordered_refuted : ∃ mod, Succeeded Ex1.lay Ex1.orc 3 2 (serial 2) mod ∧
    ¬ Ordered (interval (49/25 : Rat) (oFunc mod 0) (stdObs mod (fun _ => 1))) := by
  obtain ⟨mod, h⟩ := ex1_succeeds 3 2
  refine ⟨mod, h, ?_⟩
  rw [interval_ordered (by norm_num)]
  intro hc
  have := hc 0
  rw [stdObs, ex1_hx h] at this
  simp [mulVec, dotProduct] at this
  norm_num at this

/-- **C70** refuted: for the observable `y + r` (measurement matrix `(1, 1)`) and two uncorrelated states with unit variance the
variance is 2, the code uses the standard deviation 2. -/
theorem C70_observable_intervals_refuted (mod : Model (Fin 1) (Fin 1) (Fin 1) (Fin 1) Rat)
    (hhx : mod.hx = (fun _ _ => 1, fun _ _ => 1, 0)) :
    obsVar mod 1 0 = 2 ∧ stdObs mod (fun _ => 1) 0 ^ 2 = 4 ∧ ∀ i, (1 : Matrix (Fin 1 ⊕ Fin 1) (Fin 1 ⊕ Fin 1) Rat) i i = 1 ^ 2 := by
  refine ⟨?_, ?_, fun i => by simp⟩
  · simp [obsVar, hhx, dotProduct, Fintype.sum_sum_type]
  · simp [stdObs, hhx, mulVec, dotProduct]; norm_num

example : ∃ mod : Model (Fin 1) (Fin 1) (Fin 1) (Fin 1) Rat, mod.hx = (fun _ _ => 1, fun _ _ => 1, 0) := by
  obtain ⟨mod, h⟩ := ex1_succeeds 3 2
  exact ⟨{ mod with hx := (fun _ _ => 1, fun _ _ => 1, 0) }, rfl⟩

/-- C70: the hypotheses of the exact condition are met; the two states of the counterexample are not perfectly correlated. -/
example : ∀ a b, (1 : Matrix (Fin 1 ⊕ Fin 1) (Fin 1 ⊕ Fin 1) Rat) a b ≤ (fun _ => 1 : Fin 1 ⊕ Fin 1 → Rat) a * (fun _ => 1 : Fin 1 ⊕ Fin 1 → Rat) b := by
  intro a b
  rw [Matrix.one_apply]
  split_ifs <;> norm_num

/-- Non-vacuity of C19 and C20: a period of the example model in which the constraint binds. -/
example : ∃ mod res, Succeeded Ex1.lay Ex1.orc 3 2 (serial 2) mod ∧ simLoop mod false 0 [fun _ => -9/4] = .ok res ∧
    res.LK = [(0, 1)] ∧ (∃ qo, tFuncObs mod 0 (fun _ => -9/4) .none false = .ok qo) := by
  obtain ⟨mod, h⟩ := ex1_succeeds 3 2
  obtain ⟨r, h1, h2, h3, h4, _⟩ := binding_run 3 2 (by omega) (by omega) h
  exact ⟨mod, ⟨[0, r.state], [(r.l, r.k)], r.flag ||| 0⟩, h, by simp only [simLoop, h1], by rw [h2, h3],
    _, (C20_observables_agree mod 0 _ .none false).1 r h1⟩

/-- Non-vacuity of C68: the example model has one observable; the same solution with two observables. -/
example : Fintype.card (Fin 1) = 1 ∧ ∃ m : Model (Fin 1) (Fin 1) (Fin 1) (Fin 2) Rat, oFunc1d m none 0 = .error .valueError := by
  obtain ⟨mod, h⟩ := ex1_succeeds 3 2
  exact ⟨rfl, ⟨mod.tables, mod.omg, mod.lam, mod.xbar, mod.ff, mod.lks, (0, 0, 0)⟩, C68_obs_single_state_refuted _ (by simp) _ _⟩

example : (⟨some 1, none, none⟩ : SimSource Nat Nat Nat).pars.isSome := rfl

end Examples
end Pydsge
