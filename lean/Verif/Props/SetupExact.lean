import Verif.Props.Create
import Verif.Props.Filter
import Verif.Props.Files
import Verif.Props.Slices

/-!
# C51, C60, C92, C93, C95, C99: when exactly
-/

set_option autoImplicit false
set_option linter.unusedSectionVars false
set_option linter.unusedSimpArgs false

namespace Pydsge

/-! ## C51: running the Kalman filter twice -/

section C51
open Matrix Pydsge.Engine Pydsge.Spec Pydsge.Tools Pydsge.GenSys Pydsge.Filter
variable {E ν ε o K : Type} [Fintype E] [Fintype ν] [Fintype ε] [Fintype o]
  [DecidableEq E] [DecidableEq ν] [DecidableEq ε] [Field K] [LinearOrder K] [IsStrictOrderedRing K]
variable {H z p : Type} [DecidableEq H] [Fintype H] [Fintype z] [Fintype p] [DecidableEq z] [DecidableEq p]
variable {tol : K} {m : Input E ν ε o K} [DecidablePred (inall tol m)] {lay : Layout tol m H z p}
  {orc : Oracle (Rows E H ε) (z ⊕ ε) p K} {lMax kMax : Nat} {sched : Nat → List Nat} {mod : Model z ε p o K}

/-- **C51, exactly, for as many shocks as variables.** `run_filter` has set up the filter; `E` takes shocks to the state, `Q` is the covariance of the innovations
now in the filter. Setting it up again leaves the filter as it is iff `E Q Eᵀ = Q`, with the positions of `Q` read as shocks. -/
theorem C51_repeat_iff (h : Succeeded lay orc lMax kMax sched mod) (hl : 1 ≤ lMax) (e : (p ⊕ z) ≃ ε)
    (lyap : Matrix z z K → Matrix z z K → Except PyErr (Matrix z z K)) (f f' : KF z ε p o K) (hs : setupKF (some e) lyap mod f = .ok f') :
    ∃ E Q, Spec.LinearTransition mod f'.F E ∧ f'.Q = .states Q ∧
      (setupKF (some e) lyap mod f' = .ok f' ↔ E * Q.submatrix e.symm e.symm * Eᵀ = Q) := by
  have hc := cell10_ok h hl
  set c : Cell (z ⊕ ε) p K := ⟨mod.omg, 0, mod.lam, 0⟩ with hcdef
  set Q := transQ (some e) (stackE c) f.Q with hQ
  have hf : f'.F = padF (stackF c) ∧ f'.Q = .states Q ∧
      (f.initCov = none → f'.initCov = none) ∧ (∀ P, f.initCov = some P → f'.initCov = some P ∧ f'.P = P) ∧ f'.H = stackH mod ∧
      (f.initCov = none → ∃ p4, lyap (lowSq (padF (stackF c))) (lowSq Q) = .ok p4 ∧
        f'.P = (padF (stackF c)).submatrix id (Sum.inr : z → p ⊕ z) * p4 * ((padF (stackF c)).submatrix id (Sum.inr : z → p ⊕ z))ᵀ + Q) := by
    unfold setupKF at hs
    rw [hc] at hs
    simp only at hs
    split at hs
    · rename_i P hP
      cases hs
      exact ⟨rfl, rfl, fun h => (by rw [hP] at h; cases h), fun P' h => (by rw [hP] at h; cases h; exact ⟨rfl, rfl⟩), rfl,
        fun h => (by rw [hP] at h; cases h)⟩
    · rename_i hP
      split at hs
      · cases hs
      · rename_i p4 hp4
        cases hs
        exact ⟨rfl, rfl, fun _ => rfl, fun P h => (by rw [hP] at h; cases h), rfl, fun _ => ⟨p4, hp4, rfl⟩⟩
  obtain ⟨h1, h2, h3, h4, h5, h6⟩ := hf
  refine ⟨stackE c, Q, by rw [h1]; exact linear_of_cell h, h2, ?_, ?_⟩
  · intro h7
    unfold setupKF at h7
    rw [hc] at h7
    simp only [h2] at h7
    have : f'.Q = .states (transQ (some e) (stackE c) (.states Q)) := by
      split at h7
      · have := Except.ok.inj h7
        exact (congrArg KF.Q this).symm
      · split at h7
        · cases h7
        · have := Except.ok.inj h7
          exact (congrArg KF.Q this).symm
    rw [h2] at this
    have := QAttr.states.inj this
    exact this.symm
  · intro h7
    have h8 : transQ (some e) (stackE c) f'.Q = Q := by rw [h2]; exact h7
    unfold setupKF
    rw [hc]
    simp only [h8]
    cases hi : f.initCov with
    | some P =>
      obtain ⟨a, b⟩ := h4 P hi
      simp only [a]
      congr 1
      rcases f' with ⟨F', H', Q', P', I'⟩
      simp only at *
      simp [h1, h2, b, h5, a]
    | none =>
      obtain ⟨p4, a, b⟩ := h6 hi
      simp only [h3 hi, a]
      congr 1
      rcases f' with ⟨F', H', Q', P', I'⟩
      simp only at *
      simp [h1, h2, b, h5, h3 hi]

end C51

/-! ## C60: saved and loaded -/

section C60
open Pydsge.Files
variable {F D : Type} [DecidableEq F]

/-- **C60, exactly.** What was saved with some arguments into an empty directory is loaded with the same arguments iff the name with its suffix has at least four characters
and neither the name nor the name with its suffix ends in `.npz` (`canon` does not identify different names). -/
theorem C60_iff (canon : Path → F) (hc : Function.Injective canon) (selfPath name : Path) (s : Save D) (hp : s.path ≠ .other)
    (habs : Spec.baseName name s.path = [] → s.suffix.head? ≠ some '/') :
    loadRdict canon selfPath name (saveRdict canon selfPath name (fun _ => none) s) s.path s.suffix = .ok s.rdict ↔
      4 ≤ (Spec.baseName name s.path ++ s.suffix).length ∧ ¬ Spec.EndsNpz (Spec.baseName name s.path) ∧
        ¬ Spec.EndsNpz (Spec.baseName name s.path ++ s.suffix) := by
  by_cases hlen : 4 ≤ (Spec.baseName name s.path ++ s.suffix).length
  · rw [← C60_names selfPath name s.path s.suffix hp hlen habs, and_iff_right hlen]
    unfold loadRdict
    cases hl : loadName selfPath name s.path s.suffix with
    | error e => simp
    | ok f =>
      simp only [saveRdict, Function.update_apply, Except.ok.injEq]
      by_cases hf : canon f = canon (saveName selfPath name s.path s.suffix)
      · simp only [hf, if_true]
        simp [hc hf]
      · simp only [hf, if_false]
        have : f ≠ saveName selfPath name s.path s.suffix := fun h => hf (by rw [h])
        simp [this]
  · have : loadName selfPath name s.path s.suffix = .error .indexError := by
      unfold loadName
      cases hpp : s.path with
      | other => exact absurd hpp hp
      | none =>
        simp only [Spec.baseName, hpp, show "_res".toList = resSuffix from rfl] at hlen ⊢
        rw [if_pos (by omega)]
      | str t =>
        simp only [Spec.baseName, hpp] at hlen ⊢
        rw [if_pos (by omega)]
    unfold loadRdict
    rw [this]
    exact ⟨fun h => (by cases h), fun h => absurd h.1 hlen⟩

/-- C60: both sides occur. -/
theorem C60_iff_hypotheses_met : loadRdict id [] [] (saveRdict id [] [] (fun _ => none) ⟨.str "abcd".toList, [], 3⟩) (.str "abcd".toList) [] = .ok 3 ∧
    loadRdict id [] [] (saveRdict id [] [] (fun _ => none) ⟨.str "abc".toList, [], 3⟩) (.str "abc".toList) [] = .error .indexError ∧
    loadRdict id [] [] (saveRdict id [] [] (fun _ => none) ⟨.str "a.npz".toList, [], 3⟩) (.str "a.npz".toList) [] = .error .osError := by
  refine ⟨?_, ?_, ?_⟩ <;> decide +kernel

end C60

/-! ## C93: `create_filter` -/

section C93
open Pydsge.Create
variable {PP QQ RR : Type}

theorem short_kf_iff (ft : Option String) : short ft = some "KF" ↔ Spec.wanted ft = .kalman := by
  refine ⟨fun h => ?_, short_kalman⟩
  unfold short at h
  cases ft with
  | none => cases h
  | some s =>
    simp only at h
    split_ifs at h with h1 h2 h3 h4
    all_goals simp_all [Spec.wanted]

theorem short_never_iff (ft : Option String) : (short ft = some "IF" ∨ short ft = some "PF" ∨ short ft = some "APF") ↔ Spec.NeverMade ft := by
  refine ⟨fun h => ?_, short_never⟩
  unfold short at h
  cases ft with
  | none => simp at h
  | some s =>
    simp only at h
    split_ifs at h with h1 h2 h3 h4
    · simp at h
    · subst h2; right; left; decide
    · subst h3; right; right; decide
    · subst h4; left; decide
    · simp only [Option.some.injEq] at h
      rcases h with rfl | rfl | rfl
      · left; decide
      · right; left; decide
      · right; right; decide

/-- **C93**, what the inversion filter asks for: with `grgrwip` installed and data loaded, the first of these that applies is raised: no `omitted_obs`, an
`omitted_obs` that is no observable, no `omitted_shock`, one that is no shock, no `x_bar`; with all of them, `x_bar` is given twice. -/
theorem C93_inversion_refuted (lib : Lib PP QQ) (self : Self PP QQ RR) (a : Args RR) (hg : lib.grgrwip = true) (hd : self.data ≠ none)
    (ht : a.ftype = some "IF" ∨ a.ftype = some "InversionFilter") :
    createFilter lib self a = (self, some (
      if a.fargs.lookup "omitted_obs" = none then .keyError
      else if ∀ v ∈ self.observables, a.fargs.lookup "omitted_obs" ≠ some v then .valueError
      else if a.fargs.lookup "omitted_shock" = none then .keyError
      else if ∀ v ∈ self.shocks, a.fargs.lookup "omitted_shock" ≠ some v then .valueError
      else if a.fargs.lookup "x_bar" = none then .keyError
      else .typeError)) := by
  have hs : short a.ftype = some "IF" := by
    rcases ht with h | h <;> rw [h] <;> decide
  have key : ∀ (k : String) (xs : List String), lookupIndex a.fargs k xs = (if a.fargs.lookup k = none then .error .keyError
      else if ∀ v ∈ xs, a.fargs.lookup k ≠ some v then .error .valueError else lookupIndex a.fargs k xs) ∧
      (a.fargs.lookup k ≠ none → ¬ (∀ v ∈ xs, a.fargs.lookup k ≠ some v) → ∃ i, lookupIndex a.fargs k xs = .ok i) := by
    intro k xs
    unfold lookupIndex
    cases hk : a.fargs.lookup k with
    | none => simp
    | some v =>
      cases hx : xs.idxOf? v with
      | none =>
        have : v ∉ xs := List.idxOf?_eq_none_iff.1 hx
        simp [hx, this]
      | some i =>
        have : v ∈ xs := by
          by_contra hn
          rw [List.idxOf?_eq_none_iff.2 hn] at hx
          cases hx
        simp only [Option.some.injEq, ne_eq, reduceCtorEq, not_false_eq_true, if_false, hx]
        rw [if_neg fun h => h v this rfl]
        exact ⟨rfl, fun _ _ => ⟨i, rfl⟩⟩
  obtain ⟨n, hn⟩ := Option.ne_none_iff_exists'.1 hd
  unfold createFilter construct
  simp only [hn, hs, hg]
  rw [if_neg (by decide), if_pos trivial, if_neg (by decide)]
  obtain ⟨k1, k2⟩ := key "omitted_obs" self.observables
  obtain ⟨k3, k4⟩ := key "omitted_shock" self.shocks
  by_cases c1 : a.fargs.lookup "omitted_obs" = none
  · rw [k1, if_pos c1, if_pos c1]
  rw [if_neg c1]
  by_cases c2 : ∀ v ∈ self.observables, a.fargs.lookup "omitted_obs" ≠ some v
  · rw [k1, if_neg c1, if_pos c2, if_pos c2]
  rw [if_neg c2]
  obtain ⟨i, hi⟩ := k2 c1 c2
  rw [hi]
  simp only
  by_cases c3 : a.fargs.lookup "omitted_shock" = none
  · rw [k3, if_pos c3, if_pos c3]
  rw [if_neg c3]
  by_cases c4 : ∀ v ∈ self.shocks, a.fargs.lookup "omitted_shock" ≠ some v
  · rw [k3, if_neg c3, if_pos c4, if_pos c4]
  rw [if_neg c4]
  obtain ⟨j, hj⟩ := k4 c3 c4
  rw [hj]
  simp only
  cases a.fargs.lookup "x_bar" <;> simp

/-- **C93, exactly.** `create_filter` returns without an error iff there are data, there are parameters (or a covariance in the dictionary), and either the Kalman filter is asked for
and its constructor accepts the further arguments, or anything else that is no inversion or particle filter and the constructor of the ensemble filter does. -/
theorem C93_succeeds_iff (lib : Lib PP QQ) (self : Self PP QQ RR) (a : Args RR) :
    (createFilter lib self a).2 = none ↔ self.data ≠ none ∧ (self.ppar ≠ none ∨ self.fdictQQ ≠ none) ∧
      (Spec.wanted a.ftype = .kalman ∧ lib.kalman a.fargs = .ok () ∨
        Spec.wanted a.ftype ≠ .kalman ∧ ¬ Spec.NeverMade a.ftype ∧ lib.ensemble a.fargs = .ok ()) := by
  have hcon : (∃ k, construct lib self a = .ok k) ↔ (Spec.wanted a.ftype = .kalman ∧ lib.kalman a.fargs = .ok () ∨
        Spec.wanted a.ftype ≠ .kalman ∧ ¬ Spec.NeverMade a.ftype ∧ lib.ensemble a.fargs = .ok ()) := by
    by_cases hk : Spec.wanted a.ftype = .kalman
    · unfold construct
      rw [if_pos ((short_kf_iff _).2 hk)]
      cases lib.kalman a.fargs <;> simp [hk]
    · by_cases hn : Spec.NeverMade a.ftype
      · obtain ⟨e, he⟩ := construct_never lib self a hn
        simp [he, hk, hn]
      · have h1 : short a.ftype ≠ some "KF" := fun h => hk ((short_kf_iff _).1 h)
        have h2 := fun h => hn ((short_never_iff _).1 h)
        unfold construct
        rw [if_neg h1, if_neg (fun h => h2 (Or.inl h)), if_neg (by
          rintro (h | h)
          · exact h2 (Or.inr (Or.inl h))
          · exact h2 (Or.inr (Or.inr h)))]
        cases lib.ensemble a.fargs <;> simp [hk, hn]
  rw [← hcon]
  unfold createFilter
  cases hd : self.data with
  | none => simp
  | some n =>
    simp only
    cases hc : construct lib self a with
    | error e => simp
    | ok k =>
      simp only
      cases hp : self.ppar with
      | some pp => simp
      | none => cases hq : self.fdictQQ <;> simp

/-! ## C92: the start of `prep_estim` -/

section Prep
open Pydsge.Params
variable {K VV HX LS TT : Type} [Field K] [LinearOrder K] {S : Solver K PP VV HX LS TT QQ} {D : Decl K} {dr : Draws K} {lib : Lib PP QQ}
  {ob : Obj K PP VV HX LS TT QQ} {self : Self PP QQ RR}

/-- **C92, exactly.** For a model with priors and a solution at the prior mean, the start of `prep_estim` runs through iff neither the number of parameters nor that of
estimated parameters is ten, there are data, the inversion filter is not asked for, and the constructor of the filter accepts the further arguments. -/
theorem C92_prep_estim_iff (h : WF D) (p : Prior K) (hp : D.prior = some p) (he : p.entries.length = p.names.length)
    (hnot : "prior_mean" ∉ D.names ∧ "prior_mean" ∉ D.pfNames)
    (v₀ : List K) (hv : ob.a.par = some v₀) (hv₀ : v₀.length = D.names.length) (lMax kMax : Option Int)
    (hsol : ∀ v a, Spec.Overlay D p.names (priorMean p) v → a.lks = ob.a.lks → (genSysYaml S D ⟨lMax, kMax, false⟩ a (some v)).2 = none)
    (linear : Linear) (N : Nat) (reduced : Bool) (fargs : List (String × String)) :
    (∃ r, prepStart S D dr lMax kMax lib ob self linear N reduced fargs = .ok r) ↔
      D.names.length ≠ 10 ∧ p.names.length ≠ 10 ∧ self.data ≠ none ∧ linear ≠ .inversion ∧
        (linear = .yes → lib.kalman fargs = .ok ()) ∧ (linear = .no → lib.ensemble fargs = .ok ()) := by
  constructor
  · rintro ⟨r, hr⟩
    have h10 : ¬ (D.parFix.length = 10 ∨ ∃ p, D.prior = some p ∧ p.arg.length = 10) := by
      intro h10
      obtain ⟨e, h'⟩ := prepStart_ten (S := S) (dr := dr) (lib := lib) (ob := ob) (self := self) h10 lMax kMax linear N reduced fargs
      rw [h'] at hr
      cases hr
    have ha : p.arg.length = p.names.length := by rw [(h.prior p hp).2.1, List.length_map]
    refine ⟨fun hh => h10 (Or.inl (h.len.trans hh)), fun hh => h10 (Or.inr ⟨p, hp, ha.trans hh⟩), ?_⟩
    unfold prepStart at hr
    rcases hs : setPar S D dr ⟨lMax, kMax, false⟩ lib.sq ob (.str "prior_mean") none with ⟨ob', e | r'⟩
    · rw [hs] at hr; cases hr
    · rw [hs] at hr
      simp only at hr
      rcases hcf : createFilter { lib with cov := S.cov } { self with ppar := ob'.a.ppar } (filterCall linear N reduced fargs) with ⟨s, _ | e⟩
      · have := (C93_succeeds_iff { lib with cov := S.cov } { self with ppar := ob'.a.ppar } (filterCall linear N reduced fargs)).1 (by rw [hcf])
        obtain ⟨h1, -, h3⟩ := this
        refine ⟨h1, ?_⟩
        cases linear with
        | yes =>
          refine ⟨by simp, fun _ => ?_, by simp⟩
          rcases h3 with ⟨-, h3⟩ | ⟨h3, -⟩
          · exact h3
          · exact absurd (by show Spec.wanted (some "KalmanFilter") = _; decide) h3
        | no =>
          refine ⟨by simp, by simp, fun _ => ?_⟩
          rcases h3 with ⟨h3, -⟩ | ⟨-, -, h3⟩
          · exact absurd h3 (by show Spec.wanted (some "EnKF") ≠ _; decide)
          · exact h3
        | inversion =>
          exfalso
          rcases h3 with ⟨h3, -⟩ | ⟨-, h3, -⟩
          · exact absurd h3 (by show Spec.wanted (some "IF") ≠ _; decide)
          · exact h3 (Or.inl (by show Spec.wanted (some "IF") = _; decide))
      · rw [hcf] at hr; cases hr
  · rintro ⟨h1, h2, h3, h4, h5, h6⟩
    obtain ⟨n, hn⟩ := Option.ne_none_iff_exists'.1 h3
    obtain ⟨ob', self', v, w, pp, f, h7, -⟩ := C92_prep_estim_partial (dr := dr) (lib := lib) h p hp he h1 h2 hnot v₀ hv hv₀ lMax kMax hsol n hn linear h4 N
      reduced fargs h5 h6
    exact ⟨_, h7⟩

end Prep
end C93

/-! ## C95: lengths in `get_eps_lin` -/

/-- **C95, exactly.** `get_eps_lin` for filters other than the Kalman filter, in a model with `ns` states and `neps` shocks: vectors of lengths `n` and `m` are accepted iff
the previous one has the states, and the new one states and shocks, or a single entry. The result then has one entry per shock. -/
theorem C95_lengths_iff (ns neps n m : Nat) (r : Nat) :
    Create.epsLinLen ns neps n m = .ok r ↔ m = ns ∧ (n = ns + neps ∨ n = 1) ∧ r = neps := by
  unfold Create.epsLinLen Create.matVecLen Create.subLen
  by_cases h1 : ns = m
  · simp only [h1, if_true]
    by_cases h2 : n = m + neps
    · simp [h2, eq_comm]
    · by_cases h3 : n = 1
      · subst h3
        simp [h2, eq_comm]
      · simp only [if_neg h2, if_neg h3]
        by_cases h4 : m + neps = 1
        · simp only [h4, if_true]
          rw [if_neg (fun h => h3 h.symm)]
          simp [h3]
        · simp [h2, h3, h4]
  · simp [h1, eq_comm]

/-! ## C99: models without shocks -/

section C99
open Pydsge.GenSys Pydsge.Slices
variable {E ν ε o H K : Type} [Fintype E] [Fintype ν] [Fintype ε] [Fintype o] [DecidableEq E] [DecidableEq ν] [DecidableEq ε] [DecidableEq H]
  [Field K] [LinearOrder K] (tol : K) (m : Input E ν ε o K) (hyb : H → ν) [DecidablePred (inall tol m)]

/-- **C99, exactly.** For a model with variables, the labels of the states can be made iff there are shocks. -/
theorem C99_iff (vv0 : List (ν ⊕ H)) (hv : vv0 ≠ []) (shocks : List ε) : (∃ l, labels tol m hyb vv0 shocks = .ok l) ↔ shocks ≠ [] := by
  constructor
  · rintro ⟨l, hl⟩ rfl
    rw [C99_no_shocks_refuted tol m hyb vv0 hv] at hl
    cases hl
  · exact C99_no_shocks_partial tol m hyb vv0 shocks

end C99

end Pydsge
