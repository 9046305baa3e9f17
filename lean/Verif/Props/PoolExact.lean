import Verif.Props.Mcmc

/-!
# C47-C49, C77, C100, C101: exact conditions
-/

set_option autoImplicit false
set_option linter.unusedSectionVars false
set_option linter.unusedSimpArgs false

namespace Pydsge

open Pydsge.Mcmc

/-! ## C100 -/

/-- The calls after which the model is in debug mode although it was not before: those with `debug=True` (except an extraction with the Kalman
filter, and one that finds the pool switched off), and extractions with the Kalman filter that fail in the loop over the samples. -/
def Spec.TurnsDebugOn (s : PoolSt) : PoolEv → Prop
  | .prepEstim d _ _ | .irfs d _ | .simulate d | .priorSampler d => d = true
  | .extract d kf fails => s.pool ≠ .none ∧ if kf = true then fails = true else d = true
  | .createPool _ | .mcmc => False

/-- **C100 (exact).** The model is in debug mode after a call iff it was before, or the call is one of `Spec.TurnsDebugOn`. -/
theorem C100_debug_iff (cpus : Nat) (s : PoolSt) (e : PoolEv) :
    (poolStep cpus s e).1.debug = true ↔ s.debug = true ∨ Spec.TurnsDebugOn s e := by
  obtain ⟨d0, p⟩ := s
  cases e with
  | prepEstim d n fails =>
    cases d0 <;> cases d <;> cases fails <;> cases p <;> simp [poolStep, Spec.TurnsDebugOn, createPool] <;> split_ifs <;> simp
  | createPool n => cases p <;> simp [poolStep, Spec.TurnsDebugOn, createPool]
  | irfs d pars => cases p <;> simp [poolStep, Spec.TurnsDebugOn, createPool, refresh]
  | simulate d => cases p <;> simp [poolStep, Spec.TurnsDebugOn, createPool, refresh]
  | extract d kf fails =>
    cases d0 <;> cases d <;> cases kf <;> cases fails <;> cases p <;> simp [poolStep, Spec.TurnsDebugOn, createPool, refresh, useMapper]
  | priorSampler d => cases d <;> cases p <;> simp [poolStep, Spec.TurnsDebugOn, createPool, refresh]
  | mcmc => cases d0 <;> cases p <;> simp [poolStep, Spec.TurnsDebugOn, createPool, refresh]

/-- Some call of the sequence is one of `Spec.TurnsDebugOn`. -/
def Spec.SomeTurnsDebugOn (cpus : Nat) : PoolSt → List PoolEv → Prop
  | _, [] => False
  | s, e :: l => Spec.TurnsDebugOn s e ∨ Spec.SomeTurnsDebugOn cpus (poolStep cpus s e).1 l

/-- **C100 (exact)**, for sequences of calls. -/
theorem C100_debug_run_iff (cpus : Nat) (l : List PoolEv) : ∀ s : PoolSt,
    (poolRun cpus s l).debug = true ↔ s.debug = true ∨ Spec.SomeTurnsDebugOn cpus s l := by
  induction l with
  | nil => intro s; simp [poolRun, Spec.SomeTurnsDebugOn]
  | cons e l ih =>
    intro s
    have := ih (poolStep cpus s e).1
    rw [C100_debug_iff] at this
    rw [show poolRun cpus s (e :: l) = poolRun cpus (poolStep cpus s e).1 l from rfl, this]
    simp only [Spec.SomeTurnsDebugOn, or_assoc]

/-! ## C101 -/

/-- **C101 (exact).** After an extraction workers are left running iff there is a pool and the loop over the samples fails. -/
theorem C101_running_iff (cpus : Nat) (s : PoolSt) (d kf fails : Bool) :
    Spec.Running (poolStep cpus s (.extract d kf fails)).1 ↔ (∃ n c, s.pool = .pool n c) ∧ fails = true := by
  obtain ⟨d0, p⟩ := s
  cases d0 <;> cases d <;> cases kf <;> cases fails <;> cases p <;> simp [poolStep, createPool, refresh, useMapper, Spec.Running]

/-! ## C49 -/

/-- A call that sets the pool to `None`, for good. -/
def Spec.SwitchesOff (s : PoolSt) : PoolEv → Prop
  | .prepEstim debug ncores fails => fails = false ∧ (debug = true ∨ ncores = some 0)
  | .mcmc => s.debug = true
  | _ => False

/-- Some call of the sequence sets the pool to `None`. -/
def Spec.SomeSwitchesOff (cpus : Nat) : PoolSt → List PoolEv → Prop
  | _, [] => False
  | s, e :: l => Spec.SwitchesOff s e ∨ Spec.SomeSwitchesOff cpus (poolStep cpus s e).1 l

theorem pool_none_iff (cpus : Nat) (s : PoolSt) (e : PoolEv) :
    (poolStep cpus s e).1.pool = .none ↔ s.pool = .none ∨ Spec.SwitchesOff s e := by
  obtain ⟨d0, p⟩ := s
  cases e with
  | prepEstim d n fails =>
    cases d <;> cases fails <;> cases p <;> rcases n with _ | _ | n <;> simp [poolStep, Spec.SwitchesOff, createPool]
  | createPool n => cases p <;> simp [poolStep, Spec.SwitchesOff, createPool]
  | irfs d pars => cases p <;> simp [poolStep, Spec.SwitchesOff, createPool, refresh]
  | simulate d => cases p <;> simp [poolStep, Spec.SwitchesOff, createPool, refresh]
  | extract d kf fails =>
    cases d0 <;> cases d <;> cases kf <;> cases fails <;> cases p <;> simp [poolStep, Spec.SwitchesOff, createPool, refresh, useMapper]
  | priorSampler d => cases d <;> cases p <;> simp [poolStep, Spec.SwitchesOff, createPool, refresh]
  | mcmc => cases d0 <;> cases p <;> simp [poolStep, Spec.SwitchesOff, createPool, refresh]

theorem pool_run_none_iff (cpus : Nat) (l : List PoolEv) : ∀ s : PoolSt,
    (poolRun cpus s l).pool = .none ↔ s.pool = .none ∨ Spec.SomeSwitchesOff cpus s l := by
  induction l with
  | nil => intro s; simp [poolRun, Spec.SomeSwitchesOff]
  | cons e l ih =>
    intro s
    have := ih (poolStep cpus s e).1
    rw [pool_none_iff] at this
    rw [show poolRun cpus s (e :: l) = poolRun cpus (poolStep cpus s e).1 l from rfl, this]
    simp only [Spec.SomeSwitchesOff, or_assoc]

/-- **C49 (exact).** In a model that starts without the attribute, after any sequence of calls: `irfs` and `simulate` fail because of the pool iff some call
of the sequence set it to `None`; the failure is an `AttributeError`. -/
theorem C49_usable_iff (cpus : Nat) (d : Bool) (l : List PoolEv) (dbg pars : Bool) (e : PoolEv) (he : e = .irfs dbg pars ∨ e = .simulate dbg) :
    (poolStep cpus (poolRun cpus ⟨d, .missing⟩ l) e).2 ≠ none ↔ Spec.SomeSwitchesOff cpus ⟨d, .missing⟩ l := by
  have h := pool_run_none_iff cpus l ⟨d, .missing⟩
  simp only [reduceCtorEq, false_or] at h
  rw [← h]
  obtain ⟨d0, p⟩ := poolRun cpus ⟨d, .missing⟩ l
  rcases he with rfl | rfl <;> cases p <;> cases pars <;> simp [poolStep, createPool, refresh, useMapper]

/-- ... and the reason. -/
theorem C49_reason (cpus : Nat) (s : PoolSt) (dbg pars : Bool) (e : PoolEv) (he : e = .irfs dbg pars ∨ e = .simulate dbg) :
    (poolStep cpus s e).2 = if s.pool = .none then some .attributeError else none := by
  obtain ⟨d0, p⟩ := s
  rcases he with rfl | rfl <;> cases p <;> cases pars <;> simp [poolStep, createPool, refresh, useMapper]

/-- Both sides occur. -/
theorem C49_iff_hypotheses_met : Spec.SomeSwitchesOff 4 ⟨false, .missing⟩ [.irfs true true, .createPool none, .mcmc] ∧
    ¬ Spec.SomeSwitchesOff 4 ⟨false, .missing⟩ [.prepEstim true none true, .simulate true, .createPool (some 2)] := by
  simp [Spec.SomeSwitchesOff, Spec.SwitchesOff, poolStep, refresh, createPool, useMapper]

/-! ## C77 -/

/-- **C77 (exact).** `prep_estim` again with the same bounds and without other arguments repeats everything iff the first call was not given a seed, and was not
given a linear filter (other than `'IF'`), unless the bounds are those of the linear model anyway. -/
theorem C77_repeat_iff (a : PrepArgs) (f : Settings) :
    (prep ⟨none, none, none, none, a.lMax, a.kMax⟩ (prep a f).1).2 = (prep a f).2 ↔
      a.seed = none ∧ ((∃ l, a.linear = some l ∧ l.truthy = true ∧ l ≠ .str "IF") → a.lMax = 1 ∧ a.kMax = 0) := by
  obtain ⟨N, lin, seed, tr, lM, kM⟩ := a
  obtain ⟨fN, fl, fs, ft⟩ := f
  cases lin with
  | none => cases seed <;> simp [prep]
  | some l =>
    by_cases h : l.truthy = true ∧ l ≠ .str "IF"
    · cases seed <;> simp [prep, h.1, h.2]
    · have h' : (l.truthy && l != .str "IF") = false := by
        rw [Bool.eq_false_iff]
        intro hh
        apply h
        simpa using hh
      have h2 : ¬ ∃ m, some l = some m ∧ m.truthy = true ∧ m ≠ .str "IF" := by
        rintro ⟨m, e, hm⟩
        cases e
        exact h hm
      simp only [prep, h', Bool.false_eq_true, if_false, h2, false_imp_iff, and_true]
      cases seed <;> simp

/-- Both sides occur. -/
theorem C77_iff_hypotheses_met :
    ((PrepArgs.default).seed = none ∧ ∃ l, ({ PrepArgs.default with linear := some (.str "IF") } : PrepArgs).linear = some l ∧ l.truthy = true) ∧
    (∃ l, ({ PrepArgs.default with linear := some (.bool true) } : PrepArgs).linear = some l ∧ l.truthy = true ∧ l ≠ .str "IF") :=
  ⟨⟨rfl, _, rfl, by decide⟩, _, rfl, rfl, by decide⟩

/-! ## C47, C48 -/

section
variable {K α B : Type} [LinearOrder α] [Field K] [LinearOrder K]

/-- The starting values and the number of walkers: those given (one for each row); without any, the default ones and the number given; if the chain is resumed,
whatever is given. -/
def Spec.Starts (E : Env K α B) (a : Args K) (p : Option (P0 K)) (nw : Option Nat) : Prop :=
  (a.resume = true ∧ p = a.p0 ∧ nw = a.nwalks) ∨
  (a.resume = false ∧ a.p0 = none ∧ nw = a.nwalks ∧ ∃ q, E.start (decide (a.temp.getD 1 < 1)) = .ok q ∧ p = some q) ∨
  (a.resume = false ∧ ∃ q, a.p0 = some q ∧ p = some q ∧ nw = some (match q with | .mat m => m.length | .vec v => v.length))

/-- The default file name. -/
def Spec.suffixOf (x : Option String) : String := if x.getD "" = "" then "_sampler.h5" else x.getD ""

/-- The backend file of a call: none; the one named by the call; the one named earlier; else the default one. -/
def Spec.backendOf (E : Env K α B) (s : St K α B) (a : Args K) : Option String :=
  match a.backend with
  | .off => none
  | .file f => if f = "" then none else some f
  | .on => some (s.backendFile.getD (E.path (Spec.suffixOf a.suffix)))

/-- The backend and the files the sampler is started with: an existing file is used as it is if the chain is to be resumed or appended to, else it is replaced
by an empty one for the number of walkers, which must be known. -/
def Spec.Opens (E : Env K α B) (s : St K α B) (a : Args K) (nw : Option Nat) (f : String → Option B) : Prop :=
  match Spec.backendOf E s a with
  | none => f = s.files
  | some path =>
    if a.resume = true ∨ a.append = true then f = s.files
    else nw.getD 0 ≠ 0 ∧ ∃ x, E.fresh (nw.getD 0) s.ndim = .ok x ∧ f = Function.update s.files path (some x)

/-- There is a draw among those that are searched for the mode: the last `t` steps, or for a `t` that is not positive all but the first `-t`. -/
def Spec.HasDraw (lp : List (List α)) (t : Int) : Prop :=
  ∃ (i k : Nat) (g : α), (if 0 < t then (lp.length : Int) ≤ (i : Int) + t else -t ≤ (i : Int)) ∧ Spec.draw lp i k = some g

theorem sliceFrom_window {β : Type} (a : List β) (t : Int) :
    sliceFrom a (-t) = a.drop (if 0 < t then a.length - t.toNat else (-t).toNat) := by
  unfold sliceFrom
  split_ifs with h1 h2 h2
  · omega
  · rfl
  · congr 1; omega
  · omega

theorem hasDraw_iff (lp : List (List α)) (t : Int) : Spec.HasDraw lp t ↔ (sliceFrom lp (-t)).flatten ≠ [] := by
  rw [sliceFrom_window]
  constructor
  · rintro ⟨i, k, g, hi, hd⟩
    have : Spec.draw (lp.drop (if 0 < t then lp.length - t.toNat else (-t).toNat)) (i - (if 0 < t then lp.length - t.toNat else (-t).toNat)) k = some g := by
      rw [draw_drop, Nat.add_sub_cancel' (by split_ifs with h <;> simp only [h, if_true, if_false] at hi <;> omega)]
      exact hd
    exact List.ne_nil_of_mem (draw_mem_flatten this)
  · intro h
    obtain ⟨x, hx⟩ := List.exists_mem_of_ne_nil _ h
    obtain ⟨i, hi⟩ := List.getElem?_of_mem hx
    obtain ⟨s, k, y, e1, -, -⟩ := flatten_draw _ _ i x (rfl : Spec.SameShape _ _) hi
    rw [draw_drop] at e1
    refine ⟨_, k, x, ?_, e1⟩
    split_ifs with h <;> omega

theorem modeOf_ok_iff {X : Type} (lp : List (List α)) (ch : List (List X)) (hs : Spec.SameShape lp ch) (tune : Option Int) :
    (∃ r, modeOf lp ch tune = .ok r) ↔ ∃ t, tune = some t ∧ Spec.HasDraw lp t := by
  cases tune with
  | none => simp [modeOf]
  | some t =>
    simp only [Option.some.injEq, exists_eq_left', hasDraw_iff]
    have hlen : ch.length = lp.length := by
      have := congrArg List.length hs
      simpa using this.symm
    constructor
    · rintro ⟨r, hr⟩ hnil
      simp only [modeOf, hnil, argmax] at hr
      cases hr
    · intro hne
      obtain ⟨i, f, h1, h2, h3⟩ := argmax_spec _ hne
      have hs' : Spec.SameShape (sliceFrom lp (-t)) (sliceFrom ch (-t)) := by
        rw [sliceFrom_window, sliceFrom_window, hlen]
        exact sameShape_drop hs _
      obtain ⟨s, k, x, e1, e2, e3⟩ := flatten_draw _ _ i f hs' h2
      exact ⟨(f, x), by simp only [modeOf, h1, h2, e3]⟩

theorem startValues_iff (E : Env K α B) (a : Args K) (p : Option (P0 K)) (nw : Option Nat) :
    startValues E a (a.temp.getD 1) = .ok (p, nw) ↔ Spec.Starts E a p nw := by
  unfold startValues Spec.Starts
  cases hp : a.p0 with
  | none =>
    cases hr : a.resume with
    | true => simp [eq_comm]
    | false =>
      cases hst : E.start (decide (a.temp.getD 1 < 1)) with
      | error e => simp
      | ok q => simp [eq_comm, and_comm]
  | some q =>
    cases hr : a.resume <;> simp [eq_comm]
    intro _
    cases q <;> exact Iff.rfl

theorem resetBackend_iff (E : Env K α B) (a : Args K) (nw : Option Nat) (s : St K α B) (path : String) (b : Option String) (f : String → Option B) :
    (∃ s', resetBackend E a nw s path = (s', .ok b) ∧ s'.files = f) ↔ b = some path ∧
      if a.resume = true ∨ a.append = true then f = s.files
      else nw.getD 0 ≠ 0 ∧ ∃ x, E.fresh (nw.getD 0) s.ndim = .ok x ∧ f = Function.update s.files path (some x) := by
  unfold resetBackend
  by_cases h : a.resume = true ∨ a.append = true
  · simp only [if_pos h, if_pos (show (a.resume || a.append) = true by simpa using h), Prod.mk.injEq, Except.ok.injEq]
    constructor
    · rintro ⟨s', ⟨rfl, rfl⟩, rfl⟩; exact ⟨rfl, rfl⟩
    · rintro ⟨rfl, rfl⟩; exact ⟨_, ⟨rfl, rfl⟩, rfl⟩
  · simp only [if_neg h, if_neg (show ¬ (a.resume || a.append) = true by simpa using h)]
    by_cases hn : nw.getD 0 = 0
    · simp [hn]
    · rw [if_neg hn]
      cases hfr : E.fresh (nw.getD 0) s.ndim with
      | error e => simp
      | ok x =>
        constructor
        · rintro ⟨s', h1, rfl⟩
          cases h1
          exact ⟨rfl, hn, x, rfl, rfl⟩
        · rintro ⟨rfl, -, y, hy, rfl⟩
          cases hy
          exact ⟨_, rfl, rfl⟩

/-- What `backendPath` does. -/
theorem backendPath_files (E : Env K α B) (a : Args K) (s : St K α B) :
    (backendPath E a s).2 = s.backendFile.getD (E.path (Spec.suffixOf a.suffix)) ∧ (backendPath E a s).1.ndim = s.ndim ∧
    (backendPath E a s).1.files = if s.backendFile = none ∧ a.resume = false ∧ a.append = false then
      Function.update s.files (E.path (Spec.suffixOf a.suffix)) none else s.files := by
  have key : ∀ (sx : String), (match s.backendFile with
      | some f => (s, f)
      | none =>
        if (s.files (E.path sx)).isSome && !(a.resume || a.append) then ({ s with files := Function.update s.files (E.path sx) none }, E.path sx)
        else (s, E.path sx)).2 = s.backendFile.getD (E.path sx) ∧ (match s.backendFile with
      | some f => (s, f)
      | none =>
        if (s.files (E.path sx)).isSome && !(a.resume || a.append) then ({ s with files := Function.update s.files (E.path sx) none }, E.path sx)
        else (s, E.path sx)).1.ndim = s.ndim ∧ (match s.backendFile with
      | some f => (s, f)
      | none =>
        if (s.files (E.path sx)).isSome && !(a.resume || a.append) then ({ s with files := Function.update s.files (E.path sx) none }, E.path sx)
        else (s, E.path sx)).1.files = if s.backendFile = none ∧ a.resume = false ∧ a.append = false then
      Function.update s.files (E.path sx) none else s.files := by
    intro sx
    cases hb : s.backendFile with
    | some g => simp
    | none =>
      by_cases hra : a.resume = false ∧ a.append = false
      · simp only [hra.1, hra.2, Bool.or_false, Bool.not_false, Bool.and_true, Option.getD_none, and_self, if_true]
        by_cases hx : (s.files (E.path sx)).isSome = true
        · simp only [if_pos hx, and_self]
        · simp only [if_neg hx, true_and]
          funext x
          by_cases hxx : x = E.path sx
          · subst hxx; simpa using hx
          · simp [hxx]
      · have : (!(a.resume || a.append)) = false := by
          cases h1 : a.resume <;> cases h2 : a.append <;> simp_all
        simp only [this, Bool.and_false, Bool.false_eq_true, if_false, Option.getD_none, true_and, if_neg hra]
  have := key (Spec.suffixOf a.suffix)
  unfold backendPath
  cases hsx : a.suffix with
  | none => rw [hsx] at this; exact this
  | some x => rw [hsx] at this; exact this

theorem openBackend_iff (E : Env K α B) (a : Args K) (nw : Option Nat) (s : St K α B) (b : Option String) (f : String → Option B) :
    (∃ s', openBackend E a nw s = (s', .ok b) ∧ s'.files = f) ↔ b = Spec.backendOf E s a ∧ Spec.Opens E s a nw f := by
  have key : ∀ (s₁ : St K α B) (path : String), (backendPath E a s₁).2 = path → s₁.files = s.files → s₁.ndim = s.ndim →
      (s₁.backendFile = none → E.path (Spec.suffixOf a.suffix) = path) →
      ((∃ s', resetBackend E a nw (backendPath E a s₁).1 (backendPath E a s₁).2 = (s', .ok b) ∧ s'.files = f) ↔ b = some path ∧
      if a.resume = true ∨ a.append = true then f = s.files
      else nw.getD 0 ≠ 0 ∧ ∃ x, E.fresh (nw.getD 0) s.ndim = .ok x ∧ f = Function.update s.files path (some x)) := by
    intro s₁ path hp hf hd hnone
    obtain ⟨-, h2, h3⟩ := backendPath_files E a s₁
    rw [resetBackend_iff, hp, h2, h3, hf, hd]
    by_cases h : a.resume = true ∨ a.append = true
    · have : ¬ (s₁.backendFile = none ∧ a.resume = false ∧ a.append = false) := by
        rintro ⟨-, h1, h2⟩; rcases h with h | h <;> simp [h1, h2] at h
      simp only [if_pos h, if_neg this]
    · simp only [if_neg h]
      by_cases h' : s₁.backendFile = none ∧ a.resume = false ∧ a.append = false
      · simp only [if_pos h', hnone h'.1, Function.update_idem]
      · simp only [if_neg h']
  unfold openBackend Spec.Opens Spec.backendOf
  cases hb : a.backend with
  | off =>
    simp only [Prod.mk.injEq, Except.ok.injEq]
    constructor
    · rintro ⟨s', ⟨rfl, rfl⟩, rfl⟩; exact ⟨rfl, rfl⟩
    · rintro ⟨rfl, rfl⟩; exact ⟨_, ⟨rfl, rfl⟩, rfl⟩
  | on =>
    refine key s _ (backendPath_files E a s).1 rfl rfl ?_
    intro h; rw [h]; rfl
  | file g =>
    by_cases hg : g = ""
    · simp only [if_pos hg, Prod.mk.injEq, Except.ok.injEq]
      constructor
      · rintro ⟨s', ⟨rfl, rfl⟩, rfl⟩; exact ⟨rfl, rfl⟩
      · rintro ⟨rfl, rfl⟩; exact ⟨_, ⟨rfl, rfl⟩, rfl⟩
    · simp only [if_neg hg]
      exact key { s with backendFile := some g } g rfl rfl rfl (fun h => (by cases h))

/-- **C47 (exact).** `mcmc` completes iff there is a pool (or the debug mode), the starting values and the backend can be had, the sampler completes from there and,
without tempering, `tune` is given and there is a draw among those that are searched for the mode. -/
theorem C47_completes_iff (E : Env K α B) (s : St K α B) (a : Args K)
    (hshape : ∀ p b r f c f', E.run p b r f = .ok (c, f') → Spec.SameShape c.logProbs c.chain) :
    (mcmc E s a).2 = .ok () ↔ (s.pool.debug = true ∨ ∃ n cl, s.pool.pool = .pool n cl) ∧
      ∃ p nw f c f', Spec.Starts E a p nw ∧ Spec.Opens E s a nw f ∧ E.run p (Spec.backendOf E s a) a.resume f = .ok (c, f') ∧
        (a.temp.getD 1 = 1 → ∃ t, a.tune = some t ∧ Spec.HasDraw c.logProbs t) := by
  have hpool : (∃ q, poolStep E.cpus s.pool .mcmc = (q, none) ∧ q.pool ≠ .missing) ↔ (s.pool.debug = true ∨ ∃ n cl, s.pool.pool = .pool n cl) := by
    obtain ⟨d, p⟩ := s.pool
    cases d <;> cases p <;> simp [poolStep, refresh, createPool]
  rw [← hpool]
  unfold mcmc
  rcases hps : poolStep E.cpus s.pool .mcmc with ⟨q, _ | e⟩
  · simp only [Prod.mk.injEq, and_true, exists_eq_left']
    by_cases hm : q.pool = .missing
    · simp [hm]
    · rw [if_neg hm]
      simp only [ne_eq, hm, not_false_eq_true, true_and]
      cases hst : startValues E a (a.temp.getD 1) with
      | error e =>
        simp only [reduceCtorEq, false_iff]
        rintro ⟨p, nw, f, c, f', h, -⟩
        rw [(startValues_iff E a p nw).2 h] at hst
        cases hst
      | ok r =>
        obtain ⟨p, nw⟩ := r
        have hS := (startValues_iff E a p nw).1 hst
        have hU : ∀ p' nw', Spec.Starts E a p' nw' → p' = p ∧ nw' = nw := by
          intro p' nw' h
          have := (startValues_iff E a p' nw').2 h
          rw [hst] at this
          cases this
          exact ⟨rfl, rfl⟩
        simp only
        have hop := openBackend_iff E a nw { s with pool := q }
        rcases ho : openBackend E a nw { s with pool := q } with ⟨s1, e | path⟩
        · simp only [reduceCtorEq, false_iff]
          rintro ⟨p', nw', f, c, f', h1, h2, -⟩
          obtain ⟨rfl, rfl⟩ := hU p' nw' h1
          obtain ⟨s', e1, -⟩ := (hop (Spec.backendOf E s a) f).2 ⟨rfl, h2⟩
          rw [ho] at e1
          cases e1
        · obtain ⟨hb, hO⟩ := (hop path s1.files).1 ⟨s1, ho, rfl⟩
          have hO' : Spec.Opens E s a nw s1.files := hO
          have hb' : path = Spec.backendOf E s a := hb
          have hV : ∀ f, Spec.Opens E s a nw f → f = s1.files := by
            intro f hf
            obtain ⟨s', e1, e2⟩ := (hop (Spec.backendOf E s a) f).2 ⟨rfl, hf⟩
            rw [ho] at e1
            cases e1
            exact e2.symm
          simp only
          cases hrun : E.run p path a.resume s1.files with
          | error e =>
            simp only [reduceCtorEq, false_iff]
            rintro ⟨p', nw', f, c, f', h1, h2, h3, -⟩
            obtain ⟨rfl, rfl⟩ := hU p' nw' h1
            rw [hV f h2, ← hb', hrun] at h3
            cases h3
          | ok r =>
            obtain ⟨c, files⟩ := r
            have hmode := modeOf_ok_iff c.logProbs c.chain (hshape _ _ _ _ _ _ hrun) a.tune
            have hR : (∃ p nw f c f', Spec.Starts E a p nw ∧ Spec.Opens E s a nw f ∧ E.run p (Spec.backendOf E s a) a.resume f = .ok (c, f') ∧
                (a.temp.getD 1 = 1 → ∃ t, a.tune = some t ∧ Spec.HasDraw c.logProbs t)) ↔
                (a.temp.getD 1 = 1 → ∃ t, a.tune = some t ∧ Spec.HasDraw c.logProbs t) := by
              constructor
              · rintro ⟨p', nw', f, c', f', h1, h2, h3, h4⟩
                obtain ⟨rfl, rfl⟩ := hU p' nw' h1
                rw [hV f h2, ← hb', hrun] at h3
                cases h3
                exact h4
              · intro h
                exact ⟨p, nw, s1.files, c, files, hS, hO', hb' ▸ hrun, h⟩
            rw [hR, ← hmode]
            simp only
            by_cases ht : a.temp.getD 1 = 1
            · rw [if_pos ht]
              simp only [true_imp_iff, ht]
              cases hmo : modeOf c.logProbs c.chain a.tune with
              | error e => simp
              | ok r => simp
            · rw [if_neg ht]
              simp [ht]
  · simp

/-- The pool is fine, the default starting values are found and no backend file has been chosen. -/
def Spec.LosesDefault (E : Env K α B) (s : St K α B) (a : Args K) : Prop :=
  (s.pool.debug = true ∨ ∃ n cl, s.pool.pool = .pool n cl) ∧ (∃ q, E.start (decide (a.temp.getD 1 < 1)) = .ok q) ∧
    s.backendFile = none ∧ a.backend = .on

/-- **C48 (exact).** A call that lacks both starting values and the number of walkers, with a backend and neither to resume nor to append, never gets to the sampler.
Afterwards the files are those before, except that the default file is gone if no file has been chosen, the pool is fine and the default starting values are found.
So an existing chain is lost exactly in this case. -/
theorem C48_missing_files (E : Env K α B) (s : St K α B) (a : Args K) (hp : a.p0 = none) (hn : a.nwalks.getD 0 = 0)
    (hb : a.backend ≠ .off ∧ a.backend ≠ .file "") (hr : a.resume = false) (ha : a.append = false) :
    (∃ e, (mcmc E s a).2 = .error e) ∧
    (Spec.LosesDefault E s a → (mcmc E s a).1.files = Function.update s.files (E.path (Spec.suffixOf a.suffix)) none) ∧
    (¬ Spec.LosesDefault E s a → (mcmc E s a).1.files = s.files) := by
  unfold Spec.LosesDefault
  have hpool : (∃ q, poolStep E.cpus s.pool .mcmc = (q, none) ∧ q.pool ≠ .missing) ↔ (s.pool.debug = true ∨ ∃ n cl, s.pool.pool = .pool n cl) := by
    obtain ⟨d, p⟩ := s.pool
    cases d <;> cases p <;> simp [poolStep, refresh, createPool]
  rw [← hpool]
  unfold mcmc
  rcases hps : poolStep E.cpus s.pool .mcmc with ⟨q, _ | e⟩
  · simp only [Prod.mk.injEq, and_true, exists_eq_left']
    by_cases hm : q.pool = .missing
    · simp [hm]
    · rw [if_neg hm]
      simp only [ne_eq, hm, not_false_eq_true, true_and]
      cases hst : E.start (decide (a.temp.getD 1 < 1)) with
      | error e => simp [startValues, hp, hr, hst]
      | ok p =>
        simp only [startValues, hp, hr, hst, Bool.not_false, if_true]
        have hreset : ∀ s₁ path, resetBackend E a a.nwalks s₁ path = (s₁, .error .typeError) := by
          intro s₁ path
          simp [resetBackend, hr, ha, hn]
        have hreset' := hreset
        cases hbk : a.backend with
        | off => exact absurd hbk hb.1
        | on =>
          simp only [openBackend, hbk, hreset]
          have h3 := (backendPath_files E a { s with pool := q }).2.2
          rw [h3]
          refine ⟨⟨_, rfl⟩, ?_, ?_⟩ <;> by_cases hbf : s.backendFile = none <;> simp [hr, ha, hbf]
        | file g =>
          have hg : g ≠ "" := by rintro rfl; exact hb.2 hbk
          simp only [openBackend, hbk, if_neg hg, hreset]
          exact ⟨⟨_, rfl⟩, by simp, by simp [backendPath]⟩
  · simp

end

/-- The hypotheses of `C47_completes_iff` and `C48_missing_files` are met. -/
theorem C47_iff_hypotheses_met : (∀ p b r f c f', McmcEx.env.run p b r f = .ok (c, f') → Spec.SameShape c.logProbs c.chain) ∧
    Spec.Starts McmcEx.env McmcEx.args (some (.vec [1])) (some 2) ∧ Spec.HasDraw McmcEx.chain.logProbs 1 ∧ ¬ Spec.HasDraw McmcEx.chain.logProbs (-2) ∧
    Spec.Opens McmcEx.env McmcEx.st McmcEx.args (some 2) (Function.update McmcEx.st.files "m_sampler.h5" (some 2)) ∧
    Spec.LosesDefault McmcEx.env McmcEx.st { McmcEx.args with nwalks := none } ∧ McmcEx.st.files "m_sampler.h5" = some 77 := by
  refine ⟨?_, .inr (.inl ⟨rfl, rfl, rfl, _, rfl, rfl⟩), ⟨1, 0, 2, by decide, rfl⟩, ?_, ?_, ⟨.inr ⟨_, _, rfl⟩, ⟨_, rfl⟩, rfl, rfl⟩, rfl⟩
  · intro p b r f c f' h; cases h; rfl
  · rw [hasDraw_iff]; decide +kernel
  · exact ⟨by decide, _, rfl, rfl⟩


end Pydsge
