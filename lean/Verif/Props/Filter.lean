import Verif.Model.Filter
import Verif.Props.Engine
import Verif.Props.Sim
import Verif.Examples.Ex2

/-!
# C51-C55: filters
-/

set_option autoImplicit false
set_option linter.unusedSectionVars false
set_option linter.unusedSimpArgs false

namespace Pydsge

open Matrix Pydsge.Engine Pydsge.Spec Pydsge.Tools Pydsge.GenSys Pydsge.Filter

namespace Spec
variable {z ε p o K : Type} [Fintype z] [Fintype ε] [Fintype p] [Fintype o] [DecidableEq z] [DecidableEq ε] [DecidableEq p]
  [Field K] [LinearOrder K]

/-- `F` and `E` are the matrices of the linear transition function. -/
def LinearTransition (mod : Model z ε p o K) (F : Matrix (p ⊕ z) (p ⊕ z) K) (E : Matrix (p ⊕ z) ε K) : Prop :=
  ∀ x e, ∃ r, tFunc mod x e .none true = .ok r ∧ r.state = F *ᵥ x + E *ᵥ e

/-- `solve_discrete_lyapunov` does what it promises. -/
def LyapOK {n : Type} [Fintype n] (lyap : Matrix n n K → Matrix n n K → Except PyErr (Matrix n n K)) : Prop :=
  ∀ A Q X, lyap A Q = .ok X → X = A * X * Aᵀ + Q

/-- The pseudoinverse inverts on the range. -/
def PinvOK (pinv : Matrix (p ⊕ z) ε K → Matrix ε (p ⊕ z) K) : Prop := ∀ E, E * pinv E * E = E

/-- Every state is reached from the one before by some shocks in the linear model. -/
def Attainable (mod : Model z ε p o K) (X : List (p ⊕ z → K)) : Prop :=
  ∀ i x y, X[i]? = some x → X[i+1]? = some y → ∃ e r, tFunc mod x e .none true = .ok r ∧ y = r.state

end Spec

section
variable {E' ν H z ε p o K : Type} [Fintype E'] [Fintype ν] [Fintype H] [Fintype z] [Fintype ε] [Fintype p] [Fintype o] [DecidableEq E']
  [DecidableEq ν] [DecidableEq H] [DecidableEq z] [DecidableEq ε] [DecidableEq p] [Field K] [LinearOrder K] [IsStrictOrderedRing K]
variable {tol : K} {m : Input E' ν ε o K} [DecidablePred (inall tol m)] {lay : Layout tol m H z p}
  {orc : Oracle (Rows E' H ε) (z ⊕ ε) p K} {lMax kMax : Nat} {sched : Nat → List Nat} {mod : Model z ε p o K}

theorem cell10_ok (h : Succeeded lay orc lMax kMax sched mod) (hl : 1 ≤ lMax) : cell10 mod = .ok ⟨mod.omg, 0, mod.lam, 0⟩ := by
  obtain ⟨c, hm⟩ := genSys_ok h.perm h.gen
  obtain ⟨M', hS⟩ := hm.eng
  unfold cell10
  rw [if_pos (by rw [hS.shapeL, hS.shapeK]; omega), hS.complete.filled 1 0 (by omega) (by omega),
    cells_l0 hS (sysOf_T12 h.orc).1 (h.orc.klein _ _ hm.kl) hl]

theorem stack_mulVec (c : Cell (z ⊕ ε) p K) (x : p ⊕ z → K) (e : ε → K) :
    padF (stackF c) *ᵥ x + stackE c *ᵥ e = Sum.elim (c.pmat *ᵥ q0Of x e) (fun i => (c.qmat *ᵥ q0Of x e) (.inl i)) := by
  funext i
  rcases i with i | i <;>
    simp [mulVec, dotProduct, Fintype.sum_sum_type, padF, stackF, stackE, q0Of]

theorem linear_of_cell (h : Succeeded lay orc lMax kMax sched mod) :
    Spec.LinearTransition mod (padF (stackF ⟨mod.omg, 0, mod.lam, 0⟩)) (stackE ⟨mod.omg, 0, mod.lam, 0⟩) := by
  intro x e
  obtain ⟨⟨r, h1, h2⟩, _⟩ := C08_linear_solution_everywhere h x e (Nat.zero_le lMax)
  exact ⟨r, h1, by rw [h2, stack_mulVec]⟩

theorem linear_unique {F F' : Matrix (p ⊕ z) (p ⊕ z) K} {E E' : Matrix (p ⊕ z) ε K} (h : Spec.LinearTransition mod F E)
    (h' : Spec.LinearTransition mod F' E') : F = F' ∧ E = E' := by
  have key : ∀ x e, F *ᵥ x + E *ᵥ e = F' *ᵥ x + E' *ᵥ e := by
    intro x e
    obtain ⟨r, h1, h2⟩ := h x e
    obtain ⟨r', h1', h2'⟩ := h' x e
    rw [h1] at h1'
    cases h1'
    rw [← h2, ← h2']
  constructor
  · refine Matrix.ext_of_mulVec_single ?_
    intro i
    simpa using key (Pi.single i 1) 0
  · refine Matrix.ext_of_mulVec_single ?_
    intro i
    simpa using key 0 (Pi.single i 1)

/-- **C51 (matrices).** The model is solved with `l_max ≥ 1`. Whatever the filter was set to before, `run_filter` gives it the matrices of
the linear transition function and of the observation function, and a shock covariance is turned into that of the innovations of
the state. -/
theorem C51_matrices (h : Succeeded lay orc lMax kMax sched mod) (hl : 1 ≤ lMax) (same : Option ((p ⊕ z) ≃ ε))
    (lyap : Matrix z z K → Matrix z z K → Except PyErr (Matrix z z K)) (f f' : KF z ε p o K) (hs : setupKF same lyap mod f = .ok f') :
    ∃ E, Spec.LinearTransition mod f'.F E ∧ (∀ x, f'.H.1 *ᵥ x + f'.H.2 = oFunc mod x) ∧
      ∀ Q, f.Q = .shocks Q → f'.Q = .states (E * Q * Eᵀ) := by
  refine ⟨stackE ⟨mod.omg, 0, mod.lam, 0⟩, ?_⟩
  have hf : f'.F = padF (stackF ⟨mod.omg, 0, mod.lam, 0⟩) ∧ f'.H = stackH mod ∧
      f'.Q = .states (transQ same (stackE ⟨mod.omg, 0, mod.lam, 0⟩) f.Q) := by
    unfold setupKF at hs
    rw [cell10_ok h hl] at hs
    simp only at hs
    split at hs
    · cases hs; exact ⟨rfl, rfl, rfl⟩
    · split at hs
      · cases hs
      · cases hs; exact ⟨rfl, rfl, rfl⟩
  obtain ⟨h1, h2, h3⟩ := hf
  refine ⟨by rw [h1]; exact linear_of_cell h, ?_, ?_⟩
  · intro x
    rw [h2]
    unfold oFunc stackH
    funext i
    simp [mulVec, vecMul, dotProduct, Fintype.sum_sum_type, mul_comm]
  · intro Q hQ
    rw [h3, hQ]
    rfl

/-- **C51 (repetition, partial).** If the number of shocks differs from the dimension of the state, running the filter again, any number of
times, without setting the covariance in between leaves all its matrices as they are after the first run. Missing: models
with as many shocks as state variables. -/
theorem C51_repeat_partial (lyap : Matrix z z K → Matrix z z K → Except PyErr (Matrix z z K)) (f f' : KF z ε p o K)
    (hs : setupKF none lyap mod f = .ok f') (n : Nat) :
    (fun g => g.bind (setupKF none lyap mod))^[n] (.ok f' : Except PyErr (KF z ε p o K)) = .ok f' := by
  have fix : setupKF none lyap mod f' = .ok f' := by
    unfold setupKF at hs ⊢
    cases hc : cell10 mod with
    | error e => simp [hc] at hs
    | ok c =>
      simp only [hc] at hs ⊢
      cases hi : f.initCov with
      | some P =>
        simp only [hi] at hs
        cases hs
        rfl
      | none =>
        simp only [hi] at hs
        split at hs
        · cases hs
        · rename_i p4 hp
          cases hs
          change (match lyap (lowSq (padF (stackF c))) (lowSq (transQ none (stackE c) f.Q)) with
            | .error e => _
            | .ok p4 => _) = _
          rw [hp]
          rfl
  have fix' : (Except.ok f' : Except PyErr (KF z ε p o K)).bind (setupKF none lyap mod) = .ok f' := fix
  exact Function.iterate_fixed fix' n

/-! ## C52 -/

theorem lyap_full (F : Matrix (p ⊕ z) z K) (Q : Matrix (p ⊕ z) (p ⊕ z) K) (X : Matrix z z K)
    (hX : X = low F * X * (low F)ᵀ + lowSq Q) :
    F * X * Fᵀ + Q = padF F * (F * X * Fᵀ + Q) * (padF F)ᵀ + Q := by
  have hp : ∀ A : Matrix (p ⊕ z) (p ⊕ z) K, padF F * A * (padF F)ᵀ = F * lowSq A * Fᵀ := by
    intro A
    have h1 : padF F * A = F * low A := by
      ext i j
      simp [Matrix.mul_apply, Fintype.sum_sum_type, padF, low]
    rw [h1]
    ext i j
    simp [Matrix.mul_apply, Fintype.sum_sum_type, padF, low, lowSq]
  have hl : lowSq (F * X * Fᵀ + Q) = low F * X * (low F)ᵀ + lowSq Q := by
    ext i j
    simp [Matrix.mul_apply, low, lowSq]
  rw [hp, hl, ← hX]

theorem low_padF (F : Matrix (p ⊕ z) z K) : lowSq (padF F) = low F := by
  ext i j; rfl

theorem right_padF (F : Matrix (p ⊕ z) z K) : (padF F).submatrix id (Sum.inr : z → p ⊕ z) = F := by
  ext i j; rfl

/-- **C52 (Kalman filter).** The default initial covariance is stationary under the linear transition with shock covariance `Q`. -/
theorem C52_kalman (h : Succeeded lay orc lMax kMax sched mod) (hl : 1 ≤ lMax) (same : Option ((p ⊕ z) ≃ ε))
    (lyap : Matrix z z K → Matrix z z K → Except PyErr (Matrix z z K)) (hly : Spec.LyapOK lyap) (f f' : KF z ε p o K)
    (hs : setupKF same lyap mod f = .ok f') (hi : f.initCov = none) (Q : Matrix ε ε K) (hQ : f.Q = .shocks Q)
    (F : Matrix (p ⊕ z) (p ⊕ z) K) (E : Matrix (p ⊕ z) ε K) (hFE : Spec.LinearTransition mod F E) :
    f'.P = F * f'.P * Fᵀ + E * Q * Eᵀ := by
  obtain ⟨rfl, rfl⟩ := linear_unique hFE (linear_of_cell h)
  unfold setupKF at hs
  rw [cell10_ok h hl] at hs
  simp only [hi, hQ, transQ, low_padF, right_padF] at hs
  split at hs
  · cases hs
  · rename_i p4 hp
    cases hs
    exact lyap_full _ _ _ (hly _ _ _ hp)

/-- **C52 (ensemble filter, full state).** -/
theorem C52_ensemble (h : Succeeded lay orc lMax kMax sched mod) (hl : 1 ≤ lMax)
    (lyap : Matrix z z K → Matrix z z K → Except PyErr (Matrix z z K)) (hly : Spec.LyapOK lyap) (Q : Matrix ε ε K)
    (P : Matrix (p ⊕ z) (p ⊕ z) K) (hP : pInitLyapunov lyap mod Q = .ok P)
    (F : Matrix (p ⊕ z) (p ⊕ z) K) (E : Matrix (p ⊕ z) ε K) (hFE : Spec.LinearTransition mod F E) :
    P = F * P * Fᵀ + E * Q * Eᵀ := by
  obtain ⟨rfl, rfl⟩ := linear_unique hFE (linear_of_cell h)
  unfold pInitLyapunov at hP
  rw [cell10_ok h hl] at hP
  simp only at hP
  split at hP
  · cases hP
  · rename_i p4 hp
    cases hP
    exact lyap_full _ _ _ (hly _ _ _ hp)

/-- **C52 (ensemble filter, reduced form).** The covariance of the states alone is stationary under the states' part of the linear
transition. -/
theorem C52_reduced (h : Succeeded lay orc lMax kMax sched mod) (hl : 1 ≤ lMax)
    (lyap : Matrix z z K → Matrix z z K → Except PyErr (Matrix z z K)) (hly : Spec.LyapOK lyap) (Q : Matrix ε ε K)
    (P : Matrix z z K) (hP : pInitReduced lyap mod Q = .ok P) (F : Matrix (p ⊕ z) (p ⊕ z) K) (E : Matrix (p ⊕ z) ε K)
    (hFE : Spec.LinearTransition mod F E) : P = F.toBlocks₂₂ * P * F.toBlocks₂₂ᵀ + (E * Q * Eᵀ).toBlocks₂₂ := by
  obtain ⟨rfl, rfl⟩ := linear_unique hFE (linear_of_cell h)
  unfold pInitReduced at hP
  rw [cell10_ok h hl] at hP
  exact hly _ _ _ hP

/-! ## C102 -/

/-- The covariance a run should start from: the one given, else the default. -/
def Spec.StartsFrom {P : Type} (dflt : Except PyErr P) (arg : Option P) (used : P) : Prop :=
  match arg with
  | some P => used = P
  | none => dflt = .ok used

/-- **C102 (Kalman filter, partial).** A covariance given to `run_filter` is the initial covariance of that run; without it a filter that was never
given any uses the default, which depends on the shocks' covariance and the model alone, not on what the filter held before. Missing: runs
after one with `init_cov`. -/
theorem C102_init_cov_partial (same : Option ((p ⊕ z) ≃ ε)) (lyap : Matrix z z K → Matrix z z K → Except PyErr (Matrix z z K))
    (arg : Option (Matrix (p ⊕ z) (p ⊕ z) K)) (f f' : KF z ε p o K) (hs : runSetupKF same lyap mod arg f = .ok f') :
    (∀ P, arg = some P → f'.P = P) ∧
    (arg = none → f.initCov = none → f'.initCov = none ∧
      ∀ g : KF z ε p o K, g.initCov = none → g.Q = f.Q → ∃ g', runSetupKF same lyap mod none g = .ok g' ∧ g'.P = f'.P) := by
  unfold runSetupKF setupKF at hs
  cases hc : cell10 mod with
  | error e => simp [hc] at hs
  | ok c =>
    simp only [hc] at hs
    constructor
    · rintro P rfl
      simp only [withInit] at hs
      cases hs
      rfl
    · rintro rfl hi
      simp only [withInit, hi] at hs
      split at hs
      · cases hs
      · rename_i p4 hp
        cases hs
        refine ⟨rfl, fun g hg hQ => ?_⟩
        unfold runSetupKF setupKF
        simp only [hc, withInit, hg, hQ, hp]
        exact ⟨_, rfl, rfl⟩

/-- **C102 (ensemble filters, partial).** The covariance given is used; runs of a filter that is never given one use the default. -/
theorem C102_ensemble_partial {P : Type} (dflt : Except PyErr P) (args : List (Option P)) (r : Option P) (Ps : List P)
    (h : runsEns dflt none args = .ok (r, Ps)) (hall : (∀ a ∈ args, a ≠ none) ∨ ∀ a ∈ args, a = none) :
    List.Forall₂ (Spec.StartsFrom dflt) args Ps := by
  rcases hall with hall | hall
  · have : ∀ (args : List (Option P)) (attr r : Option P) (Ps : List P), (∀ a ∈ args, a ≠ none) → runsEns dflt attr args = .ok (r, Ps) →
        List.Forall₂ (Spec.StartsFrom dflt) args Ps := by
      intro args
      induction args with
      | nil => intro attr r Ps _ h; cases h; exact .nil
      | cons a as ih =>
        intro attr r Ps ha h
        obtain ⟨X, rfl⟩ := Option.ne_none_iff_exists'.1 (ha a (by simp))
        simp only [runsEns, runSetupEns, withInit] at h
        split at h
        · cases h
        · rename_i r' Ps' h'
          cases h
          exact .cons rfl (ih _ _ _ (fun b hb => ha b (by simp [hb])) h')
    exact this args none r Ps hall h
  · have : ∀ (args : List (Option P)) (r : Option P) (Ps : List P), (∀ a ∈ args, a = none) → runsEns dflt none args = .ok (r, Ps) →
        List.Forall₂ (Spec.StartsFrom dflt) args Ps := by
      intro args
      induction args with
      | nil => intro r Ps _ h; cases h; exact .nil
      | cons a as ih =>
        intro r Ps ha h
        obtain rfl := ha a (by simp)
        simp only [runsEns, runSetupEns, withInit] at h
        cases hd : dflt with
        | error e => simp [hd] at h
        | ok X =>
          simp only [hd] at h
          split at h
          · cases h
          · rename_i r' Ps' h'
            cases h
            rw [← hd] at h'
            have := ih _ _ (fun b hb => ha b (by simp [hb])) h'
            rw [hd] at this
            exact .cons rfl this
    exact this args r Ps hall h

/-- `C102_ensemble_partial` is not vacuous. -/
theorem C102_ensemble_hypotheses_met : runsEns (.ok (5 : Nat)) none [some 1, some 2] = .ok (some 2, [1, 2]) ∧
    runsEns (.ok (5 : Nat)) none [none, none] = .ok (none, [5, 5]) := ⟨rfl, rfl⟩

/-- **C102 (negation).** Once a covariance has been given, it is used for all later runs, for any model and any number of runs in
between; also by the Kalman filter. -/
theorem C102_init_cov_refuted {P : Type} (dflt : Except PyErr P) (X : P) (n : Nat) :
    runsEns dflt none (some X :: List.replicate n none) = .ok (some X, X :: List.replicate n X) := by
  have : ∀ n, runsEns dflt (some X) (List.replicate n none) = .ok (some X, List.replicate n X) := by
    intro n
    induction n with
    | zero => rfl
    | succ n ih => simp [List.replicate_succ, runsEns, runSetupEns, withInit, ih]
  simp [runsEns, runSetupEns, withInit, this]

theorem C102_kalman_refuted (h : Succeeded lay orc lMax kMax sched mod) (hl : 1 ≤ lMax) (same : Option ((p ⊕ z) ≃ ε))
    (lyap : Matrix z z K → Matrix z z K → Except PyErr (Matrix z z K)) (P : Matrix (p ⊕ z) (p ⊕ z) K) (f : KF z ε p o K) :
    ∃ f' f'', runSetupKF same lyap mod (some P) f = .ok f' ∧ runSetupKF same lyap mod none f' = .ok f'' ∧ f''.P = P := by
  unfold runSetupKF setupKF
  simp only [cell10_ok h hl, withInit]
  exact ⟨_, _, rfl, rfl, rfl⟩

/-! ## C53 -/

theorem extractLoop_sim (pinv : Matrix (p ⊕ z) ε K → Matrix ε (p ⊕ z) K) (F : Matrix (p ⊕ z) (p ⊕ z) K) :
    ∀ (xs : List (p ⊕ z → K)) (cur : p ⊕ z → K) (path : List (p ⊕ z → K)) (resid : List (ε → K)),
      extractLoop pinv F mod cur xs = .ok (path, resid) → ∃ res, simLoop mod true cur resid = .ok res ∧ res.X = cur :: path := by
  intro xs
  induction xs with
  | nil =>
    intro cur path resid h
    simp only [extractLoop, Except.ok.injEq, Prod.mk.injEq] at h
    obtain ⟨rfl, rfl⟩ := h
    exact ⟨_, rfl, rfl⟩
  | cons x xs ih =>
    intro cur path resid h
    unfold extractLoop at h
    cases he : getEpsLin pinv F mod x cur with
    | error e => simp [he] at h
    | ok eps =>
      simp only [he] at h
      cases ht : tFunc mod cur eps .none true with
      | error e => simp [ht] at h
      | ok r =>
        simp only [ht] at h
        cases hr : extractLoop pinv F mod r.state xs with
        | error e => simp [hr] at h
        | ok pr =>
          obtain ⟨path', resid'⟩ := pr
          simp only [hr, Except.ok.injEq, Prod.mk.injEq] at h
          obtain ⟨rfl, rfl⟩ := h
          obtain ⟨res, h1, h2⟩ := ih _ _ _ hr
          refine ⟨_, by simp only [simLoop, ht, h1]; rfl, ?_⟩
          simp [h2]

/-- **C53 (reproduction).** `simulate` in linear mode, applied to what `extract` returned, yields the path that `extract` went through. -/
theorem C53_reproduces (pinv : Matrix (p ⊕ z) ε K → Matrix ε (p ⊕ z) K) (F : Matrix (p ⊕ z) (p ⊕ z) K)
    (means path : List (p ⊕ z → K)) (init : p ⊕ z → K) (resid : List (ε → K))
    (h : extractKF pinv F mod means = .ok (init, path, resid)) (op : K → K → K) :
    ∃ res, simulate mod true none op init resid = .ok res ∧ res.X = path := by
  cases means with
  | nil => simp [extractKF] at h
  | cons x xs =>
    simp only [extractKF] at h
    cases hr : extractLoop pinv F mod x xs with
    | error e => simp [hr] at h
    | ok pr =>
      obtain ⟨path', resid'⟩ := pr
      simp only [hr, Except.ok.injEq, Prod.mk.injEq] at h
      obtain ⟨rfl, rfl, rfl⟩ := h
      exact extractLoop_sim pinv F xs x path' resid' hr

theorem extractLoop_attains (h : Succeeded lay orc lMax kMax sched mod) (hl : 1 ≤ lMax) (pinv : Matrix (p ⊕ z) ε K → Matrix ε (p ⊕ z) K)
    (hp : Spec.PinvOK pinv) (F : Matrix (p ⊕ z) (p ⊕ z) K) (E : Matrix (p ⊕ z) ε K) (hF : Spec.LinearTransition mod F E) :
    ∀ (xs : List (p ⊕ z → K)) (cur : p ⊕ z → K), ∃ path resid, extractLoop pinv F mod cur xs = .ok (path, resid) ∧
      resid.length = xs.length ∧ (Spec.Attainable mod (cur :: xs) → path = xs) := by
  obtain ⟨rfl, rfl⟩ := linear_unique hF (linear_of_cell h)
  intro xs
  induction xs with
  | nil => intro cur; exact ⟨[], [], rfl, rfl, fun _ => rfl⟩
  | cons x xs ih =>
    intro cur
    unfold extractLoop
    have he : getEpsLin pinv (padF (stackF ⟨mod.omg, 0, mod.lam, 0⟩)) mod x cur =
        .ok (pinv (stackE ⟨mod.omg, 0, mod.lam, 0⟩) *ᵥ (x - padF (stackF ⟨mod.omg, 0, mod.lam, 0⟩) *ᵥ cur)) := by
      unfold getEpsLin
      rw [cell10_ok h hl]
    obtain ⟨r, hr1, hr2⟩ := hF cur (pinv (stackE ⟨mod.omg, 0, mod.lam, 0⟩) *ᵥ (x - padF (stackF ⟨mod.omg, 0, mod.lam, 0⟩) *ᵥ cur))
    obtain ⟨path, resid, h1, h2, h3⟩ := ih r.state
    simp only [he, hr1, h1]
    refine ⟨_, _, rfl, by simp [h2], ?_⟩
    intro ha
    obtain ⟨e, r', ht, hx⟩ := ha 0 cur x rfl rfl
    obtain ⟨r'', ht', hx'⟩ := hF cur e
    rw [ht] at ht'
    cases ht'
    have hstate : r.state = x := by
      rw [hr2, hx, hx', add_sub_cancel_left, mulVec_mulVec, mulVec_mulVec, hp]
    rw [hstate] at h3 ⊢
    rw [h3]
    intro i a b ha' hb'
    exact ha (i + 1) a b (by simpa using ha') (by simpa using hb')

/-- **C53 (attainable states).** The filter's transition matrix is the one of the linear model (C51). `extract` succeeds on every sequence of
smoothed states with at least one element; its path starts at the first smoothed state and is the sequence of smoothed
states if these are attainable by some shocks. -/
theorem C53_attains (h : Succeeded lay orc lMax kMax sched mod) (hl : 1 ≤ lMax) (pinv : Matrix (p ⊕ z) ε K → Matrix ε (p ⊕ z) K)
    (hp : Spec.PinvOK pinv) (F : Matrix (p ⊕ z) (p ⊕ z) K) (E : Matrix (p ⊕ z) ε K) (hF : Spec.LinearTransition mod F E)
    (x : p ⊕ z → K) (xs : List (p ⊕ z → K)) :
    ∃ path resid, extractKF pinv F mod (x :: xs) = .ok (x, path, resid) ∧ resid.length = xs.length ∧
      (Spec.Attainable mod (x :: xs) → path = x :: xs) := by
  obtain ⟨path, resid, h1, h2, h3⟩ := extractLoop_attains h hl pinv hp F E hF xs x
  refine ⟨x :: path, resid, by simp only [extractKF, h1], h2, fun ha => by rw [h3 ha]⟩

end

/-! ## C54 -/

/-- **C54.** Provided the filter itself does not raise `NotImplementedError`: it is raised iff the data has one column or a number of columns other
than that of the shocks; what `get_ll` returns is never NaN; NaN is reported as minus infinity, and everything else as it is. -/
theorem C54_validation {α : Type} (ncols neps : Nat) (flt : Except PyErr (Estim.XNum α)) (hf : flt ≠ .error .notImplemented) :
    (runLL ncols neps flt = .error .notImplemented ↔ ncols = 1 ∨ ncols ≠ neps) ∧
    (∀ x, runLL ncols neps flt = .ok x → x ≠ .nan) ∧
    (ncols ≠ 1 → ncols = neps → (flt = .ok .nan → runLL ncols neps flt = .ok .ninf) ∧
      ∀ x, x ≠ .nan → flt = .ok x → runLL ncols neps flt = .ok x) := by
  unfold runLL
  refine ⟨?_, ?_, ?_⟩
  · split_ifs with h1 h2
    · simp [h1]
    · simp [h2]
    · cases flt with
      | error e =>
        simp only [ne_eq, Except.error.injEq] at hf
        simp only [Except.error.injEq, hf, false_iff]
        rintro (h | h)
        · exact h1 h
        · exact h2 h
      | ok x =>
        have : ¬ (ncols = 1 ∨ ncols ≠ neps) := by rintro (h | h); exacts [h1 h, h2 h]
        cases x <;> simp [this]
  · intro x
    split_ifs
    · simp
    · simp
    · cases flt with
      | error e => simp
      | ok y => cases y <;> (simp only [Except.ok.injEq]; rintro rfl; simp)
  · intro h1 h2
    rw [if_neg h1, if_neg (by simpa using h2)]
    refine ⟨by rintro rfl; rfl, ?_⟩
    rintro x hx rfl
    cases x <;> first | rfl | exact absurd rfl hx

example : runLL 3 3 (.ok (.nan : Estim.XNum ℚ)) = .ok .ninf ∧ runLL 1 1 (.ok (.nan : Estim.XNum ℚ)) = .error .notImplemented ∧
    runLL 2 2 (.ok (.fin (5 : ℚ))) = .ok (.fin 5) := ⟨rfl, rfl, rfl⟩

/-! ## C55 -/

theorem attempts_used {S R : Type} (npas : S → Except PyErr R) (seed : S) : ∀ (n : Nat) (err : Option PyErr),
    (∀ s ∈ (attempts npas seed n err).2, s = seed) ∧ (attempts npas seed n err).2.length ≤ n ∧
    (∀ e, npas seed = .error e → 1 ≤ n → (attempts npas seed n err).1 = .error (some e)) ∧
    (∀ r, npas seed = .ok r → 1 ≤ n → (attempts npas seed n err).1 = .ok r ∧ (attempts npas seed n err).2.length = 1) ∧
    (∀ e, npas seed = .error e → (attempts npas seed n err).2.length = n)
  | 0, err => ⟨by simp [attempts], by simp [attempts], by simp, by simp, by simp [attempts]⟩
  | n + 1, err => by
    unfold attempts
    cases h : npas seed with
    | ok r => simp
    | error e =>
      obtain ⟨h1, h2, h3, _, h5⟩ := attempts_used npas seed n (some e)
      refine ⟨?_, ?_, ?_, by simp, fun _ _ => by simpa using h5 e h⟩
      · intro s hs
        rcases List.mem_cons.1 hs with rfl | hs
        · rfl
        · exact h1 s hs
      · simpa using h2
      · intro e' he _
        cases he
        rcases n with _ | n
        · rfl
        · exact h3 e h (by omega)

/-- **C55 (partial).** If the first attempt succeeds, it is the only one and its result is returned. Otherwise there are `nattemps` attempts and
the sample fails with their error, unless failures are accepted. Missing: that the seed changes. -/
theorem C55_sound_partial {S R : Type} (npas : S → Except PyErr R) (seed : S) (n : Nat) (hn : 1 ≤ n) (acc : Bool) :
    (extractRetry npas seed n acc).2.length ≤ n ∧
    (∀ r, npas seed = .ok r → (extractRetry npas seed n acc).1 = .ok (some r) ∧ (extractRetry npas seed n acc).2.length = 1) ∧
    (∀ e, npas seed = .error e → (extractRetry npas seed n acc).1 = (if acc then .ok none else .error e) ∧
      (extractRetry npas seed n acc).2.length = n) := by
  obtain ⟨_, h2, h3, h4, h5⟩ := attempts_used npas seed n none
  unfold extractRetry
  rcases ha : attempts npas seed n none with ⟨r, used⟩
  rw [ha] at h2 h3 h4 h5
  refine ⟨?_, ?_, ?_⟩
  · rcases r with (_ | e) | r <;> exact h2
  · intro x hx
    obtain ⟨this, hl⟩ := h4 x hx hn
    simp only at this hl
    subst this
    exact ⟨rfl, hl⟩
  · intro e he
    have := h3 e he hn
    have hl := h5 e he
    simp only at this hl
    subst this
    exact ⟨rfl, hl⟩

/-- **C55 (negation).** All attempts use one and the same seed, so a sample whose seed fails is lost although any other seed would
do. -/
theorem C55_retry_refuted : ∃ npas : Nat → Except PyErr Nat, (∀ s, s ≠ 7 → npas s = .ok s) ∧
    (extractRetry npas 7 4 false) = (.error .valueError, [7, 7, 7, 7]) :=
  ⟨fun s => if s = 7 then .error .valueError else .ok s, fun s hs => by simp [hs], rfl⟩

/-- ... in general. -/
theorem C55_same_seed {S R : Type} (npas : S → Except PyErr R) (seed : S) (n : Nat) (acc : Bool) :
    ∀ s ∈ (extractRetry npas seed n acc).2, s = seed := by
  obtain ⟨h1, _⟩ := attempts_used npas seed n none
  unfold extractRetry
  rcases ha : attempts npas seed n none with ⟨r, used⟩
  rw [ha] at h1
  rcases r with (_ | e) | r <;> exact h1


/-! ## Examples -/

namespace FilterEx

/-- `solve_discrete_lyapunov` in one dimension. -/
def lyap1 (A Q : Matrix (Fin 1) (Fin 1) Rat) : Except PyErr (Matrix (Fin 1) (Fin 1) Rat) :=
  if A 0 0 * A 0 0 = 1 then .error .linAlg else .ok <| Matrix.of fun _ _ => Q 0 0 / (1 - A 0 0 * A 0 0)

theorem lyap1_ok : Spec.LyapOK lyap1 := by
  intro A Q X h
  unfold lyap1 at h
  split_ifs at h with h1
  cases h
  ext i j
  have h2 : (1 : Rat) - A 0 0 * A 0 0 ≠ 0 := fun h => h1 (by linarith)
  obtain rfl := Subsingleton.elim i 0
  obtain rfl := Subsingleton.elim j 0
  simp only [Matrix.add_apply, Matrix.mul_apply, Finset.univ_unique, Finset.sum_singleton, Fin.default_eq_zero, Matrix.transpose_apply, Matrix.of_apply]
  generalize A 0 0 = a at *
  rw [eq_comm, ← sub_eq_zero]
  have : a * (Q 0 0 / (1 - a * a)) * a + Q 0 0 - Q 0 0 / (1 - a * a) = Q 0 0 - (1 - a * a) * (Q 0 0 / (1 - a * a)) := by ring
  rw [this, mul_div_cancel₀ _ h2, sub_self]

/-- The pseudoinverse of a column. -/
def pinv1 (E : Matrix (Fin 1 ⊕ Fin 1) (Fin 1) Rat) : Matrix (Fin 1) (Fin 1 ⊕ Fin 1) Rat :=
  fun _ j => E j 0 / (E (.inl 0) 0 * E (.inl 0) 0 + E (.inr 0) 0 * E (.inr 0) 0)

theorem pinv1_ok : Spec.PinvOK pinv1 := by
  intro E
  by_cases h : E (.inl 0) 0 * E (.inl 0) 0 + E (.inr 0) 0 * E (.inr 0) 0 = 0
  · have h1 : E (.inl 0) 0 = 0 := by nlinarith [mul_self_nonneg (E (.inl 0) 0), mul_self_nonneg (E (.inr 0) 0)]
    have h2 : E (.inr 0) 0 = 0 := by nlinarith [mul_self_nonneg (E (.inl 0) 0), mul_self_nonneg (E (.inr 0) 0)]
    ext i j
    rcases i with i | i <;> simp [Matrix.mul_apply, Fintype.sum_sum_type, pinv1, Subsingleton.elim i 0, Subsingleton.elim j 0, h1, h2]
  · ext i j
    have h' : E (.inl 0) 0 ^ 2 + E (.inr 0) 0 ^ 2 ≠ 0 := by simpa [pow_two] using h
    rcases i with i | i <;>
      simp [Matrix.mul_apply, Fintype.sum_sum_type, pinv1, Subsingleton.elim i 0, Subsingleton.elim j 0] <;> field_simp

/-- The example model with one shock of variance 1: the set-up succeeds, and the smoothed states `(2/3, 2/3), (1, 1)` are attainable
(by a shock of 1). -/
example : ∃ mod f', Succeeded Ex1.lay Ex1.orc 3 2 (serial 2) mod ∧ setupKF none lyap1 mod ⟨0, (0, 0), .shocks 1, 0, none⟩ = .ok f' ∧
    f'.P (.inr 0) (.inr 0) = 16/27 ∧ Spec.Attainable mod [fun _ => 2/3, fun _ => 1] := by
  obtain ⟨mod, h⟩ := ex1_succeeds 3 2
  obtain ⟨c, hm⟩ := genSys_ok h.perm h.gen
  have hkl := hm.kl
  simp only [Ex1.orc, Except.ok.injEq, Prod.mk.injEq] at hkl
  have hc := cell10_ok h (by omega)
  rw [← hkl.1, ← hkl.2] at hc
  have hl : ∀ Q : Matrix (Fin 1) (Fin 1) Rat, lyap1 (lowSq (padF (stackF ⟨Ex1.omg, 0, Ex1.lam, 0⟩))) Q = .ok (Matrix.of fun _ _ => Q 0 0 / (3/4)) := by
    intro Q
    unfold lyap1
    have : lowSq (padF (stackF (⟨Ex1.omg, 0, Ex1.lam, 0⟩ : Cell (Fin 1 ⊕ Fin 1) (Fin 1) Rat))) 0 0 = 1/2 := by
      simp [lowSq, padF, stackF, Ex1.lam]
    rw [this, if_neg (by norm_num)]
    norm_num
  refine ⟨mod, _, h, by unfold setupKF; rw [hc]; simp only [hl]; rfl, ?_, ?_⟩
  · simp [Matrix.mul_apply, lowSq, padF, stackF, stackE, transQ, Ex1.lam]
    norm_num
  · intro i x y hx hy
    rcases i with _ | i
    · simp only [List.getElem?_cons_zero, Option.some.injEq, Nat.zero_add, List.getElem?_cons_succ] at hx hy
      subst hx hy
      obtain ⟨r, h1, h2⟩ := linear_of_cell h (fun _ => 2/3) (fun _ => 1)
      refine ⟨fun _ => 1, r, h1, ?_⟩
      rw [h2, stack_mulVec, ← hkl.1, ← hkl.2]
      funext i
      rcases i with i | i <;> simp [mulVec, dotProduct, Fintype.sum_sum_type, q0Of, Ex1.omg, Ex1.lam] <;> norm_num
    · simp at hy

end FilterEx

/-- The shocks and the variables of the model with two shocks, by position. -/
def FilterEx.same : (Fin 1 ⊕ Fin 1) ≃ Bool where
  toFun := fun i => match i with
    | .inl _ => false
    | .inr _ => true
  invFun := fun b => if b then .inr 0 else .inl 0
  left_inv := by rintro (i | i) <;> simp [Subsingleton.elim i 0]
  right_inv := by rintro (_ | _) <;> rfl

open FilterEx in
/-- **C51 (negation).** The model of `Ex2` has as many shocks as variables. There, the second run of the filter takes the covariance of the
states for that of the shocks and uses a different covariance. -/
theorem C51_repeat_refuted : ∃ (mod : Model (Fin 1) Bool (Fin 1) (Fin 1) Rat) (f f' f'' : KF (Fin 1) Bool (Fin 1) (Fin 1) Rat),
    Succeeded Ex2.lay Ex2.orc 3 2 (serial 2) mod ∧ f.Q = .shocks 1 ∧ setupKF (some same) lyap1 mod f = .ok f' ∧
    setupKF (some same) lyap1 mod f' = .ok f'' ∧ f'.Q = .states (Matrix.of fun _ _ => 8/9) ∧ f''.Q = .states (Matrix.of fun _ _ => 128/81) := by
  obtain ⟨mod, h⟩ := Ex2.succeeds (b := -1) 3 2 (Ex2.serial_perm 3 2)
  obtain ⟨c, hm⟩ := genSys_ok h.perm h.gen
  have hkl := hm.kl
  simp only [Ex2.orc, Except.ok.injEq, Prod.mk.injEq] at hkl
  have hc := cell10_ok h (by omega)
  rw [← hkl.1, ← hkl.2] at hc
  have hQ1 : transQ (some same) (stackE ⟨Ex2.omg, 0, Ex2.lam, 0⟩) (.shocks 1) = (Matrix.of fun _ _ => 8/9 : Matrix (Fin 1 ⊕ Fin 1) (Fin 1 ⊕ Fin 1) Rat) := by
    ext i j
    rcases i with i | i <;> rcases j with j | j <;> simp [transQ, Matrix.mul_apply, stackE, Ex2.omg, Ex2.lam] <;> norm_num
  have hQ2 : transQ (some same) (stackE ⟨Ex2.omg, 0, Ex2.lam, 0⟩) (.states (Matrix.of fun _ _ => 8/9)) =
      (Matrix.of fun _ _ => 128/81 : Matrix (Fin 1 ⊕ Fin 1) (Fin 1 ⊕ Fin 1) Rat) := by
    ext i j
    rcases i with i | i <;> rcases j with j | j <;> simp [transQ, Matrix.mul_apply, stackE, Ex2.omg, Ex2.lam] <;> norm_num
  have hl : ∀ Q : Matrix (Fin 1) (Fin 1) Rat, lyap1 (lowSq (padF (stackF ⟨Ex2.omg, 0, Ex2.lam, 0⟩))) Q = .ok (Matrix.of fun _ _ => Q 0 0 / (3/4)) := by
    intro Q
    unfold lyap1
    have : lowSq (padF (stackF (⟨Ex2.omg, 0, Ex2.lam, 0⟩ : Cell (Fin 1 ⊕ Bool) (Fin 1) Rat))) 0 0 = 1/2 := by
      simp [lowSq, padF, stackF, Ex2.lam]
    rw [this, if_neg (by norm_num)]
    norm_num
  refine ⟨mod, ⟨0, (0, 0), .shocks 1, 0, none⟩, _, _, h, rfl, by unfold setupKF; rw [hc]; simp only [hQ1, hl]; rfl,
    by unfold setupKF; rw [hc]; simp only [hQ2, hl]; rfl, rfl, rfl⟩

end Pydsge
