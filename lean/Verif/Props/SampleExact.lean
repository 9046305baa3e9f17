import Verif.Props.Files
import Verif.Props.Chains
import Verif.Props.Stats
import Verif.Props.Filter

/-!
# C55, C59, C79, C102, C114: exact conditions
-/

set_option autoImplicit false
set_option linter.unusedSectionVars false
set_option linter.unusedSimpArgs false

namespace Pydsge

/-! ## C55 -/

section
open Pydsge.Filter

theorem attempts_error {S R : Type} (npas : S → Except PyErr R) (seed : S) {e : PyErr} (he : npas seed = .error e) : ∀ (n : Nat) (err : Option PyErr),
    attempts npas seed n err = (.error (if n = 0 then err else some e), List.replicate n seed)
  | 0, err => by simp [attempts]
  | n + 1, err => by
    simp only [attempts, he, attempts_error npas seed he n]
    by_cases hn : n = 0 <;> simp [hn, List.replicate_succ]

/-- **C55 (exact).** The whole outcome: with at least one attempt, the result of the one seed if it succeeds; else `n` attempts with this seed, and its error or, if
failures are accepted, nothing. Without attempts the call fails. So a sample is extracted iff its seed works, whatever the number of attempts. -/
theorem C55_outcome {S R : Type} (npas : S → Except PyErr R) (seed : S) (n : Nat) (acc : Bool) :
    extractRetry npas seed n acc = (match n, npas seed with
      | 0, _ => (.error .unboundLocal, [])
      | _ + 1, .ok r => (.ok (some r), [seed])
      | n + 1, .error e => (if acc then .ok none else .error e, List.replicate (n + 1) seed)) ∧
    (1 ≤ n → ∀ r, (extractRetry npas seed n acc).1 = .ok (some r) ↔ npas seed = .ok r) := by
  have h1 : extractRetry npas seed n acc = (match n, npas seed with
      | 0, _ => (.error .unboundLocal, [])
      | _ + 1, .ok r => (.ok (some r), [seed])
      | n + 1, .error e => (if acc then .ok none else .error e, List.replicate (n + 1) seed)) := by
    cases n with
    | zero => rfl
    | succ n =>
      cases hs : npas seed with
      | ok r => simp [extractRetry, attempts, hs]
      | error e => simp [extractRetry, attempts_error npas seed hs]
  refine ⟨h1, fun hn r => ?_⟩
  rw [h1]
  obtain ⟨m, rfl⟩ : ∃ m, n = m + 1 := ⟨n - 1, by omega⟩
  cases hs : npas seed with
  | ok r' => simp
  | error e => cases acc <;> simp

end

/-! ## C102 -/

section
open Pydsge.Filter

/-- The last covariance that was given. -/
def Spec.lastGiven {P : Type} (args : List (Option P)) : Option P := (args.filterMap id).getLast?

theorem lastGiven_cons {P : Type} (a : Option P) (l : List (Option P)) : Spec.lastGiven (a :: l) = (Spec.lastGiven l).or a := by
  unfold Spec.lastGiven
  cases a with
  | none => simp
  | some x =>
    rw [show List.filterMap id (some x :: l) = x :: List.filterMap id l from rfl, List.getLast?_cons]
    cases (l.filterMap id).getLast? <;> rfl

theorem runsEns_values {P : Type} (dflt : Except PyErr P) : ∀ (args : List (Option P)) (attr r : Option P) (Ps : List P),
    runsEns dflt attr args = .ok (r, Ps) → Ps.length = args.length ∧ r = (Spec.lastGiven args).or attr ∧
      ∀ (i : Nat) (X : P), Ps[i]? = some X → match (Spec.lastGiven (args.take (i + 1))).or attr with
        | some Y => X = Y
        | none => dflt = .ok X
  | [], attr, r, Ps, h => by
    cases h
    exact ⟨rfl, rfl, fun i X hX => (by simp at hX)⟩
  | a :: args, attr, r, Ps, h => by
    simp only [runsEns] at h
    have hw : withInit a attr = a.or attr := by cases a <;> rfl
    cases hs : runSetupEns dflt a attr with
    | error e => rw [hs] at h; cases h
    | ok q =>
      obtain ⟨attr', X0⟩ := q
      rw [hs] at h
      simp only at h
      cases hr : runsEns dflt attr' args with
      | error e => rw [hr] at h; cases h
      | ok q =>
        obtain ⟨r', Qs⟩ := q
        rw [hr] at h
        cases h
        obtain ⟨h1, h2, h3⟩ := runsEns_values dflt args attr' r Qs hr
        have hattr : attr' = a.or attr ∧ (match a.or attr with | some Y => X0 = Y | none => dflt = .ok X0) := by
          unfold runSetupEns at hs
          rw [hw] at hs
          cases hor : a.or attr with
          | some Y => rw [hor] at hs; cases hs; exact ⟨rfl, rfl⟩
          | none =>
            rw [hor] at hs
            cases hd : dflt with
            | error e => rw [hd] at hs; cases hs
            | ok Y => rw [hd] at hs; cases hs; exact ⟨rfl, rfl⟩
        refine ⟨by simp [h1], by rw [h2, lastGiven_cons, hattr.1, Option.or_assoc], ?_⟩
        intro i X hX
        cases i with
        | zero =>
          simp only [List.getElem?_cons_zero, Option.some.injEq] at hX
          subst hX
          have : Spec.lastGiven (List.take (0 + 1) (a :: args)) = a := by
            cases a <;> simp [Spec.lastGiven]
          rw [this]
          exact hattr.2
        | succ i =>
          have := h3 i X (by simpa using hX)
          rw [List.take_succ_cons, lastGiven_cons, Option.or_assoc, ← hattr.1]
          exact this

/-- **C102 (exact, values).** In any sequence of runs that completes, run number `i` starts from the last covariance that was given up to it, and from the default if none
was; the filter then holds the last one given. -/
theorem C102_ensemble_values {P : Type} (dflt : Except PyErr P) (args : List (Option P)) (r : Option P) (Ps : List P)
    (h : runsEns dflt none args = .ok (r, Ps)) :
    Ps.length = args.length ∧ r = Spec.lastGiven args ∧ ∀ (i : Nat) (X : P), Ps[i]? = some X →
      (∀ Y, Spec.lastGiven (args.take (i + 1)) = some Y → X = Y) ∧ (Spec.lastGiven (args.take (i + 1)) = none → dflt = .ok X) := by
  obtain ⟨h1, h2, h3⟩ := runsEns_values dflt args none r Ps h
  refine ⟨h1, by simpa using h2, fun i X hX => ?_⟩
  have := h3 i X hX
  simp only [Option.or_none] at this
  cases hg : Spec.lastGiven (args.take (i + 1)) with
  | none => rw [hg] at this; exact ⟨fun Y hY => (by cases hY), fun _ => this⟩
  | some Y => rw [hg] at this; exact ⟨fun Z hZ => (by cases hZ; exact this), fun hn => (by cases hn)⟩

/-- **C102 (exact).** All runs of the sequence start from what they should iff no run without a covariance comes after one with a covariance that is not the default. -/
theorem C102_ensemble_iff {P : Type} (dflt : Except PyErr P) (args : List (Option P)) (r : Option P) (Ps : List P)
    (h : runsEns dflt none args = .ok (r, Ps)) :
    List.Forall₂ (Spec.StartsFrom dflt) args Ps ↔
      ∀ (i : Nat) (X : P), args[i]? = some none → Spec.lastGiven (args.take i) = some X → dflt = .ok X := by
  obtain ⟨h1, -, h3⟩ := C102_ensemble_values dflt args r Ps h
  have htake : ∀ (i : Nat) (a : Option P), args[i]? = some a → Spec.lastGiven (args.take (i + 1)) = a.or (Spec.lastGiven (args.take i)) := by
    intro i a ha
    rw [List.take_add_one, ha]
    unfold Spec.lastGiven
    cases a with
    | none => simp
    | some x => simp
  constructor
  · intro hF i X hi hX
    obtain ⟨Y, hY⟩ : ∃ Y, Ps[i]? = some Y := by
      have : i < args.length := (List.getElem?_eq_some_iff.1 hi).1
      exact ⟨_, List.getElem?_eq_getElem (by omega)⟩
    have hs := (List.forall₂_iff_get.1 hF).2 i (List.getElem?_eq_some_iff.1 hi).1 (List.getElem?_eq_some_iff.1 hY).1
    have e1 : args.get ⟨i, (List.getElem?_eq_some_iff.1 hi).1⟩ = none := (List.getElem?_eq_some_iff.1 hi).2
    have e2 : Ps.get ⟨i, (List.getElem?_eq_some_iff.1 hY).1⟩ = Y := (List.getElem?_eq_some_iff.1 hY).2
    rw [e1, e2] at hs
    have : Y = X := (h3 i Y hY).1 X (by rw [htake i none hi]; simpa using hX)
    subst this
    exact hs
  · intro hA
    rw [List.forall₂_iff_get]
    refine ⟨h1.symm, fun i hi hi' => ?_⟩
    have hv := h3 i (Ps.get ⟨i, hi'⟩) (by simp)
    have ha : args[i]? = some (args.get ⟨i, hi⟩) := by simp
    rw [htake i _ ha] at hv
    cases hg : args.get ⟨i, hi⟩ with
    | some X =>
      rw [hg] at hv
      exact hv.1 X rfl
    | none =>
      rw [hg] at hv ha
      simp only [Option.none_or] at hv
      cases hl : Spec.lastGiven (args.take i) with
      | none => exact hv.2 hl
      | some X =>
        have := hv.1 X hl
        rw [this]
        exact hA i X ha hl

/-- Both sides occur. -/
theorem C102_iff_hypotheses_met : runsEns (.ok (5 : Nat)) none [none, some 5, none, some 2] = .ok (some 2, [5, 5, 5, 2]) ∧
    runsEns (.ok (5 : Nat)) none [some 1, none] = .ok (some 1, [1, 1]) ∧ Spec.lastGiven (([some 1, none] : List (Option Nat)).take 1) = some 1 :=
  ⟨rfl, rfl, rfl⟩

end

section
open Matrix Pydsge.Engine Pydsge.GenSys Pydsge.Filter
variable {z ε p o K : Type} [Fintype z] [Fintype ε] [Fintype p] [Fintype o] [DecidableEq z] [DecidableEq ε] [DecidableEq p]
  [Field K] [LinearOrder K]

/-- **C102 (exact), Kalman filter.** One run: the filter holds the covariance given, else the one it held, and starts from it if there is one. -/
theorem C102_kalman_value (same : Option ((p ⊕ z) ≃ ε)) (lyap : Matrix z z K → Matrix z z K → Except PyErr (Matrix z z K)) (mod : Model z ε p o K)
    (arg : Option (Matrix (p ⊕ z) (p ⊕ z) K)) (f f' : KF z ε p o K) (hs : runSetupKF same lyap mod arg f = .ok f') :
    f'.initCov = arg.or f.initCov ∧ ∀ P, arg.or f.initCov = some P → f'.P = P := by
  have hw : withInit arg f.initCov = arg.or f.initCov := by cases arg <;> rfl
  unfold runSetupKF setupKF at hs
  cases hc : cell10 mod with
  | error e => rw [hc] at hs; cases hs
  | ok c =>
    rw [hc] at hs
    simp only [hw] at hs
    cases ho : arg.or f.initCov with
    | some P =>
      rw [ho] at hs
      cases hs
      exact ⟨rfl, fun Q hQ => (by cases hQ; rfl)⟩
    | none =>
      rw [ho] at hs
      simp only at hs
      split at hs
      · cases hs
      · cases hs
        exact ⟨rfl, fun Q hQ => (by cases hQ)⟩

end

/-! ## C59 -/

section
open Pydsge.Files
variable {P : Type}

/-- `k` is the smallest number of steps of `n` walkers with 60 draws or more. -/
def Spec.Sixty (n k : Nat) : Prop := 60 ≤ k * n ∧ ∀ j, 60 ≤ j * n → k ≤ j

theorem sixty_recentOf {n : Nat} (hn : 0 < n) : Spec.Sixty n (recentOf n) := by
  constructor
  · unfold recentOf
    have := Nat.div_add_mod (60 + n - 1) n
    have h5 := Nat.mod_lt (60 + n - 1) hn
    rw [Nat.mul_comm]
    omega
  · intro j hj
    unfold recentOf
    rw [← Nat.lt_succ_iff, Nat.div_lt_iff_lt_mul hn, Nat.succ_mul]
    omega

theorem sixty_unique {n k k' : Nat} (h : Spec.Sixty n k) (h' : Spec.Sixty n k') : k = k' :=
  le_antisymm (h.2 _ h'.1) (h'.2 _ h.1)

theorem takeAll_ok_iff (xs : List P) : ∀ is : List Nat, (∃ r, takeAll xs is = .ok r) ↔ ∀ i ∈ is, i < xs.length
  | [] => by simp [takeAll]
  | i :: is => by
    have ih := takeAll_ok_iff xs is
    simp only [takeAll, List.mem_cons, forall_eq_or_imp, ← ih]
    cases hx : xs[i]? with
    | none =>
      have : ¬ i < xs.length := by simpa using hx
      simp [this]
    | some x =>
      have : i < xs.length := (List.getElem?_eq_some_iff.1 hx).1
      cases ht : takeAll xs is <;> simp [this]

/-- **C59 (exact).** `get_sample` returns iff there are at least eight walkers, the chain has as many steps as 60 draws need, no more than these draws are asked for,
and the random numbers, which are positions among these draws of all walkers, happen to be positions in the chain of one walker. -/
theorem C59_get_sample_iff (choice : Nat → Nat → List Nat) (stored : List (List P)) (nwalks : Nat) (hshape : ∀ ws ∈ stored, ws.length = nwalks)
    (size : Nat) (arg : Option (List (List P))) (k : Nat) (hk : 0 < nwalks → Spec.Sixty nwalks k) :
    (∃ r, getSample choice stored nwalks size arg = .ok r) ↔
      8 ≤ nwalks ∧ k ≤ stored.length ∧ size ≤ k * nwalks ∧ ∀ i ∈ choice (k * nwalks) size, i < stored.length := by
  by_cases h8 : 8 ≤ nwalks
  · have hkr : recentOf nwalks = k := sixty_unique (sixty_recentOf (by omega)) (hk (by omega))
    have hkn : k ≤ nwalks := (hk (by omega)).2 nwalks (by nlinarith)
    have hk0 : 0 < k := by
      rcases Nat.eq_zero_or_pos k with rfl | h
      · have := (hk (by omega)).1; omega
      · exact h
    have hlen : (stored.filterMap fun ws => ws[nwalks - k]?).length = stored.length := by
      clear hk hkr
      induction stored with
      | nil => rfl
      | cons ws l ih =>
        have hw := hshape ws (by simp)
        have : ws[nwalks - k]? = some (ws[nwalks - k]'(by omega)) := List.getElem?_eq_getElem _
        rw [List.filterMap_cons, this]
        simp [ih (fun w hw' => hshape w (by simp [hw']))]
    unfold getSample
    simp only [hkr]
    rw [if_neg (by omega : ¬ nwalks = 0)]
    by_cases h1 : k > stored.length
    · rw [if_pos h1]
      constructor
      · rintro ⟨r, hr⟩; cases hr
      · rintro ⟨-, h, -⟩; omega
    · rw [if_neg h1, if_neg (by omega : ¬ k > nwalks)]
      by_cases h2 : size > k * nwalks
      · rw [if_pos h2]
        constructor
        · rintro ⟨r, hr⟩; cases hr
        · rintro ⟨-, -, h, -⟩; omega
      · rw [if_neg h2, takeAll_ok_iff, hlen]
        constructor
        · intro h; exact ⟨h8, by omega, by omega, h⟩
        · rintro ⟨-, -, -, h⟩; exact h
  · constructor
    · rintro ⟨r, hr⟩
      obtain ⟨e, he⟩ := C59_few_walkers_refuted choice stored nwalks (by omega) size arg
      rw [he] at hr
      cases hr
    · rintro ⟨h, -⟩; exact absurd h h8

/-- **C59 (exact).** `get_sample` returns whatever the random numbers are iff there are at least eight walkers and the chain of each walker alone has as many draws as
the recent steps of all of them together (or nothing is asked for). -/
theorem C59_always_iff (stored : List (List P)) (nwalks : Nat) (hshape : ∀ ws ∈ stored, ws.length = nwalks)
    (size : Nat) (arg : Option (List (List P))) (k : Nat) (hk : 0 < nwalks → Spec.Sixty nwalks k) :
    (∀ choice : Nat → Nat → List Nat, (∀ n k, k ≤ n → (choice n k).length = k ∧ (choice n k).Nodup ∧ ∀ i ∈ choice n k, i < n) →
      ∃ r, getSample choice stored nwalks size arg = .ok r) ↔
      8 ≤ nwalks ∧ k ≤ stored.length ∧ size ≤ k * nwalks ∧ (size = 0 ∨ k * nwalks ≤ stored.length) := by
  constructor
  · intro h
    have c1 : ∀ n m : Nat, m ≤ n → ((List.range m).map fun i => n - 1 - i).length = m ∧ ((List.range m).map fun i => n - 1 - i).Nodup ∧
        ∀ i ∈ (List.range m).map fun i => n - 1 - i, i < n := by
      intro n m hm
      refine ⟨by simp, ?_, ?_⟩
      · refine List.Nodup.map_on ?_ List.nodup_range
        intro x hx y hy hxy
        simp only [List.mem_range] at hx hy
        omega
      · intro i hi
        simp only [List.mem_map, List.mem_range] at hi
        obtain ⟨j, hj, rfl⟩ := hi
        omega
    obtain ⟨h1, h2, h3, h4⟩ := (C59_get_sample_iff _ stored nwalks hshape size arg k hk).1 (h (fun n m => (List.range m).map fun i => n - 1 - i) c1)
    refine ⟨h1, h2, h3, ?_⟩
    rcases Nat.eq_zero_or_pos size with h0 | h0
    · exact .inl h0
    · right
      have := h4 (k * nwalks - 1 - 0) (List.mem_map.2 ⟨0, List.mem_range.2 h0, rfl⟩)
      omega
  · rintro ⟨h1, h2, h3, h4⟩ choice hch
    refine (C59_get_sample_iff _ stored nwalks hshape size arg k hk).2 ⟨h1, h2, h3, ?_⟩
    obtain ⟨c1, -, c3⟩ := hch (k * nwalks) size h3
    intro i hi
    rcases h4 with rfl | h4
    · rw [List.length_eq_zero_iff.1 c1] at hi; simp at hi
    · exact lt_of_lt_of_le (c3 i hi) h4

/-- The hypotheses are met: with ten walkers, six steps; a chain of 60 steps always works, one of 59 does not. -/
theorem C59_iff_hypotheses_met : Spec.Sixty 10 6 ∧ (∀ ws ∈ List.replicate 59 (List.replicate 10 (1 : Rat)), ws.length = 10) ∧
    ¬ (1 = 0 ∨ 6 * 10 ≤ (List.replicate 59 (List.replicate 10 (1 : Rat))).length) ∧ 6 ≤ (List.replicate 59 (List.replicate 10 (1 : Rat))).length := by
  refine ⟨⟨by norm_num, fun j hj => by omega⟩, ?_, by simp, by simp⟩
  intro ws hws
  rw [List.eq_of_mem_replicate hws]
  simp

end

/-! ## C79 -/

section
open Pydsge.Stats
variable {K : Type} [Field K] [LinearOrder K]

/-- **C79 (exact).** `post_mean` of a given chain: it fails if the chain contains two or more numbers; a chain with one number that is not zero has this number as
its mean; else the chain is ignored. So the given chain is used iff it consists of a single non-zero number. -/
theorem C79_given_outcome {n : Nat} (stored chain : Chain n K) (getTune : Int) (tune : Option Int) :
    (2 ≤ n * chain.flatten.length → postMean stored getTune (some chain) tune = .error .valueError) ∧
    (n * chain.flatten.length = 0 → postMean stored getTune (some chain) tune = postMean stored getTune none tune) ∧
    (∀ x : Fin n → K, n = 1 → chain.flatten = [x] → (∀ j, x j ≠ 0) → ∃ m, postMean stored getTune (some chain) tune = .ok m ∧ ∀ j, m j = x j) ∧
    (∀ x : Fin n → K, n = 1 → chain.flatten = [x] → (∀ j, x j = 0) → postMean stored getTune (some chain) tune = postMean stored getTune none tune) := by
  refine ⟨C79_post_mean_refuted stored chain getTune tune, ?_, ?_, ?_⟩
  · intro h
    have : (chain.flatten.flatMap fun x => List.ofFn x) = [] := by
      rcases Nat.mul_eq_zero.1 h with rfl | h
      · simp
      · rw [List.length_eq_zero_iff.1 h]; rfl
    simp [postMean, this, arrayTruth]
  · rintro x rfl hx hne
    refine ⟨chainMean chain, ?_, ?_⟩
    · simp [postMean, hx, arrayTruth, hne 0]
    · intro j
      simp [chainMean, hx]
  · rintro x rfl hx he
    simp [postMean, hx, arrayTruth, he 0]

end

/-! ## C114 -/

section
open Pydsge.Chains
variable {X : Type}

/-- The argument of a call of `prep_estim` that names a setting. -/
def Spec.named : TEv X → Option Bool
  | .prep a => a
  | _ => none

/-- The setting in force after a history: the one named last, else the stored one, else none. -/
def Spec.inForce (setting : Option Bool) (evs : List (TEv X)) : Bool := (((evs.filterMap Spec.named).getLast?).or setting).getD false

theorem inForce_concat (setting : Option Bool) (evs : List (TEv X)) (e : TEv X) :
    Spec.inForce setting (evs ++ [e]) = (Spec.named e).getD (Spec.inForce setting evs) := by
  unfold Spec.inForce
  rw [List.filterMap_append]
  cases h : Spec.named e with
  | none => simp [h]
  | some b => simp [h]

theorem after_state (setting : Option Bool) (evs : List (TEv X)) :
    (Spec.after (Spec.fresh setting) evs).setting.getD false = Spec.inForce setting evs ∧
    ((Spec.after (Spec.fresh setting) evs).attr = none ∨ (Spec.after (Spec.fresh setting) evs).attr = some (Spec.inForce setting evs)) ∧
    ((Spec.after (Spec.fresh setting) evs).lprob = none ∨ (Spec.after (Spec.fresh setting) evs).lprob = some (Spec.inForce setting evs)) := by
  induction evs using List.reverseRecOn with
  | nil => simp [Spec.after, Spec.fresh, Spec.inForce]
  | append_singleton evs e ih =>
    have hst : Spec.after (Spec.fresh setting) (evs ++ [e]) = (Spec.after (Spec.fresh setting) evs).step e := by simp [Spec.after]
    rw [hst, inForce_concat]
    obtain ⟨h1, h2, h3⟩ := ih
    cases e with
    | prep a => simp [TState.step, TState.prep, Spec.named, h1]
    | mcmc d =>
      rcases h3 with h3 | h3
      · simp [TState.step, TState.prep, Spec.named, h1, h3]
      · simp [TState.step, TState.prep, Spec.named, h1, h3, h2]
    | getChain =>
      rcases h2 with h2 | h2
      · simp [TState.step, TState.prep, Spec.named, h1, h2]
      · simp [TState.step, TState.prep, Spec.named, h1, h2, h3]

/-- **C114 (exact).** After any history whose last run of `mcmc` made the draws `d`: `get_chain` returns the parameter vectors at which the posterior was evaluated
iff the setting in force now is the one in force at the run, or the transformation leaves all draws as they are. -/
theorem C114_chain_iff (f : X → X) (setting : Option Bool) (pre post : List (TEv X)) (d : List (List X)) (hpost : ∀ e ∈ post, ∀ d', e ≠ .mcmc d') :
    (Spec.after (Spec.fresh setting) (pre ++ .mcmc d :: post)).chain f = Spec.evaluated f (Spec.after (Spec.fresh setting) (pre ++ .mcmc d :: post)) ↔
      Spec.inForce setting pre = Spec.inForce setting (pre ++ post) ∨ d.map (·.map f) = d := by
  have hrun : (Spec.after (Spec.fresh setting) (pre ++ .mcmc d :: post)).run = some (d, Spec.inForce setting pre) := by
    induction post using List.reverseRecOn with
    | nil =>
      have hst : Spec.after (Spec.fresh setting) (pre ++ [.mcmc d]) = (Spec.after (Spec.fresh setting) pre).step (.mcmc d) := by simp [Spec.after]
      rw [hst]
      obtain ⟨h1, -, h3⟩ := after_state setting pre
      rcases h3 with h3 | h3
      · simp [TState.step, TState.prep, h1, h3]
      · simp [TState.step, TState.prep, h1, h3]
    | append_singleton post e ih =>
      have hst : Spec.after (Spec.fresh setting) (pre ++ .mcmc d :: (post ++ [e])) = (Spec.after (Spec.fresh setting) (pre ++ .mcmc d :: post)).step e := by
        simp [Spec.after]
      have ih' := ih (fun e he => hpost e (by simp [he]))
      rw [hst]
      cases e with
      | prep a => simpa [TState.step, TState.prep] using ih'
      | mcmc d' => exact absurd rfl (hpost (.mcmc d') (by simp) d')
      | getChain =>
        simp only [TState.step]
        split_ifs
        · simpa [TState.prep] using ih'
        · exact ih'
  obtain ⟨h1, h2, -⟩ := after_state setting (pre ++ .mcmc d :: post)
  have hf : Spec.inForce setting (pre ++ .mcmc d :: post) = Spec.inForce setting (pre ++ post) := by
    unfold Spec.inForce
    simp [List.filterMap_append, List.filterMap_cons, Spec.named]
  rw [hf] at h1 h2
  set s := Spec.after (Spec.fresh setting) (pre ++ .mcmc d :: post)
  have hattr : (s.step .getChain).attr = some (Spec.inForce setting (pre ++ post)) ∧ (s.step .getChain).run = s.run := by
    rcases h2 with h2 | h2
    · simp [TState.step, h2, TState.prep, h1]
    · simp [TState.step, h2]
  unfold TState.chain Spec.evaluated
  simp only [hattr.1, hattr.2, hrun, Option.map_some, Option.some.injEq]
  cases hA : Spec.inForce setting pre <;> cases hB : Spec.inForce setting (pre ++ post) <;> simp [eq_comm]

/-- Both sides occur. -/
theorem C114_iff_hypotheses_met :
    Spec.inForce none [(.prep (some true) : TEv Int)] = Spec.inForce none ([.prep (some true)] ++ [(.prep none : TEv Int)]) ∧
    Spec.inForce none [(.prep (some true) : TEv Int)] ≠ Spec.inForce none ([.prep (some true)] ++ [(.prep (some false) : TEv Int)]) ∧
    ([[1]] : List (List Int)).map (·.map fun x => x + 10) ≠ [[1]] := by decide

end

end Pydsge
