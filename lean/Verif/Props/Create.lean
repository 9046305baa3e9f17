import Verif.Model.Create
import Verif.Props.ParSets
import Mathlib.LinearAlgebra.Matrix.PosDef
import Mathlib.Algebra.Order.BigOperators.Ring.Finset
import Mathlib.Tactic.FieldSimp

/-!
# C92: preparing an estimation; C93: making filters; C94: covariance of the measurement errors; C95: smoothed shocks of the ensemble filter
-/

set_option autoImplicit false
set_option linter.unusedSectionVars false
set_option linter.unusedSimpArgs false

namespace Pydsge

open Pydsge.Params Pydsge.Create

variable {K PP VV HX LS TT QQ RR : Type}

/-! ## C93 -/

/-- The kind of filter that a value of `ftype` asks for. -/
inductive Spec.Wanted
  | kalman | ensemble | inversion | particle | auxiliary | unknown
  deriving DecidableEq

/-- The names of filters that appear in the code (filtering.py:73-112, estimation.py:100-104). -/
def Spec.wanted (ftype : Option String) : Spec.Wanted :=
  if ftype = some "KF" ∨ ftype = some "KalmanFilter" then .kalman
  else if ftype = none ∨ ftype = some "EnKF" ∨ ftype = some "TEnKF" then .ensemble
  else if ftype = some "IF" ∨ ftype = some "InversionFilter" then .inversion
  else if ftype = some "PF" ∨ ftype = some "ParticleFilter" then .particle
  else if ftype = some "APF" ∨ ftype = some "AuxiliaryParticleFilter" then .auxiliary
  else .unknown

/-- The filter is what `create_filter` should make of its arguments: kind and dimensions, measurement errors as given, and as covariance the one
of the current parameters. -/
structure Spec.GoodFilter (lib : Lib PP QQ) (m : Self PP QQ RR) (a : Args RR) (f : Filter QQ RR) : Prop where
  kalman : Spec.wanted a.ftype = .kalman → f.kind = .kalman m.dimx m.nobs
  ensemble : Spec.wanted a.ftype = .ensemble → ∃ N, f.kind = .ensemble N (if a.reduced then m.dimq - m.dimeps else m.dimx) m.nobs a.reduced ∧
    (∀ n, a.N = some n → N = n) ∧ (a.N = none → 0 < N ∧ N = (m.dimq - m.dimeps) ^ 2 / 2 + 1)
  R : f.R = a.R
  Q : ∀ pp, m.ppar = some pp → f.Q = lib.sq (lib.cov pp)

theorem short_kalman {ft : Option String} (h : Spec.wanted ft = .kalman) : short ft = some "KF" := by
  unfold Spec.wanted at h
  split_ifs at h with h1
  rcases h1 with rfl | rfl <;> decide

theorem short_ensemble {ft : Option String} (h : Spec.wanted ft = .ensemble) :
    short ft ≠ some "KF" ∧ short ft ≠ some "IF" ∧ short ft ≠ some "PF" ∧ short ft ≠ some "APF" := by
  unfold Spec.wanted at h
  split_ifs at h with h1 h2
  rcases h2 with rfl | rfl | rfl <;> decide

/-- The types that cannot be made. -/
def Spec.NeverMade (ft : Option String) : Prop :=
  Spec.wanted ft = .inversion ∨ Spec.wanted ft = .particle ∨ Spec.wanted ft = .auxiliary

theorem short_never {ft : Option String} (h : Spec.NeverMade ft) :
    short ft = some "IF" ∨ short ft = some "PF" ∨ short ft = some "APF" := by
  unfold Spec.NeverMade Spec.wanted at h
  split_ifs at h with h1 h2 h3 h4 h5
  all_goals simp only [reduceCtorEq, or_self, or_false, false_or] at h
  · rcases h3 with rfl | rfl <;> decide
  · rcases h4 with rfl | rfl <;> decide
  · rcases h5 with rfl | rfl <;> decide

/-- **C93 (partial).** `create_filter` for the Kalman filter and the ensemble filter, with data loaded, parameters set and a constructor that accepts the
additional arguments: succeeds and makes the right filter; nothing else of `self` changes. If it fails, for whatever reason, `self` (so also
an earlier filter) is as before.

Missing: inversion filter, particle filters, misspelt names (`C93_filter_types_refuted`). -/
theorem C93_filter_types_partial (lib : Lib PP QQ) (self : Self PP QQ RR) (a : Args RR) :
    (∀ n pp, self.data = some n → self.ppar = some pp →
      (Spec.wanted a.ftype = .kalman ∧ lib.kalman a.fargs = .ok () ∨ Spec.wanted a.ftype = .ensemble ∧ lib.ensemble a.fargs = .ok ()) →
      ∃ f, createFilter lib self a = ({ self with filter := some f }, none) ∧ Spec.GoodFilter lib self a f) ∧
    (∀ self' e, createFilter lib self a = (self', some e) → self' = self) := by
  constructor
  · intro n pp hd hpp hk
    unfold createFilter construct
    simp only [hd, hpp]
    rcases hk with ⟨hw, hl⟩ | ⟨hw, hl⟩
    · rw [if_pos (short_kalman hw), hl]
      refine ⟨_, rfl, fun _ => rfl, fun h => by simp [hw] at h, rfl, fun pp' h => ?_⟩
      rw [hpp, Option.some.injEq] at h
      subst h; rfl
    · obtain ⟨h1, h2, h3, h4⟩ := short_ensemble hw
      rw [if_neg h1, if_neg h2, if_neg (by simp [h3, h4]), hl]
      refine ⟨_, rfl, fun h => by simp [hw] at h, fun _ => ⟨_, rfl, ?_, ?_⟩, rfl, fun pp' h => ?_⟩
      · intro n hn
        simp [hn]
      · intro hn
        simp [hn]
      · rw [hpp, Option.some.injEq] at h
        subst h; rfl
  · intro self' e h
    unfold createFilter at h
    cases hd : self.data with
    | none =>
      simp only [hd, Prod.mk.injEq] at h
      exact h.1.symm
    | some n =>
      simp only [hd] at h
      cases hc : construct lib self a with
      | error e' =>
        simp only [hc, Prod.mk.injEq] at h
        exact h.1.symm
      | ok k =>
        simp only [hc] at h
        cases hp : self.ppar with
        | some pp => simp [hp] at h
        | none =>
          simp only [hp] at h
          cases hq : self.fdictQQ with
          | none =>
            simp only [hq, Prod.mk.injEq] at h
            exact h.1.symm
          | some q => simp [hq] at h

/-- The inversion filter and the particle filters can never be made. -/
theorem construct_never (lib : Lib PP QQ) (self : Self PP QQ RR) (a : Args RR) (h : Spec.NeverMade a.ftype) :
    ∃ e, construct lib self a = .error e := by
  unfold construct
  rcases short_never h with h | h | h
  · rw [if_neg (by rw [h]; decide), if_pos h]
    cases lib.grgrwip with
    | false => exact ⟨_, rfl⟩
    | true =>
      simp only [Bool.not_true, Bool.false_eq_true, if_false]
      cases lookupIndex a.fargs "omitted_obs" self.observables with
      | error e => exact ⟨_, rfl⟩
      | ok _ =>
        cases lookupIndex a.fargs "omitted_shock" self.shocks with
        | error e => exact ⟨_, rfl⟩
        | ok _ =>
          cases a.fargs.lookup "x_bar" with
          | none => exact ⟨_, rfl⟩
          | some _ => exact ⟨_, rfl⟩
  · rw [if_neg (by rw [h]; decide), if_neg (by rw [h]; decide), if_pos (Or.inl h)]
    exact ⟨_, rfl⟩
  · rw [if_neg (by rw [h]; decide), if_neg (by rw [h]; decide), if_pos (Or.inr h)]
    exact ⟨_, rfl⟩

/-- A model with everything in place. -/
def FilterEx.self : Self Nat Nat Nat := ⟨some 2, 4, 5, 2, 2, ["y", "pi"], ["e", "u"], some 3, none, none⟩

def FilterEx.lib : Lib Nat Nat := ⟨fun n => n, fun n => n * n, true, fun _ => .ok (), fun _ => .ok ()⟩

/-- **C93 (refuted).** For every model and all arguments: the inversion filter and the particle filters raise. And names that nobody has defined, such as
`"kf"`, give an ensemble filter without an error. -/
theorem C93_filter_types_refuted :
    (∀ (lib : Lib PP QQ) (self : Self PP QQ RR) (a : Args RR), Spec.NeverMade a.ftype → ∃ e, createFilter lib self a = (self, some e)) ∧
    Spec.NeverMade (some "InversionFilter") ∧ Spec.NeverMade (some "PF") ∧ Spec.NeverMade (some "AuxiliaryParticleFilter") ∧
    Spec.wanted (some "kf") = .unknown ∧
    (createFilter FilterEx.lib FilterEx.self ⟨none, none, some "kf", false, []⟩).2 = none ∧
    ((createFilter FilterEx.lib FilterEx.self ⟨none, none, some "kf", false, []⟩).1.filter.map (·.kind)) = some (.ensemble 5 4 2 false) := by
  refine ⟨?_, Or.inl (by decide), Or.inr (Or.inl (by decide)), Or.inr (Or.inr (by decide)), by decide, by decide, by decide⟩
  intro lib self a h
  unfold createFilter
  cases self.data with
  | none => exact ⟨_, rfl⟩
  | some n =>
    obtain ⟨e, he⟩ := construct_never lib self a h
    simp only [he]
    exact ⟨_, rfl⟩

/-- The hypotheses of the partial theorem are met. -/
theorem C93_hypotheses_met :
    FilterEx.self.data = some 2 ∧ FilterEx.self.ppar = some 3 ∧ FilterEx.lib.kalman [] = .ok () ∧ FilterEx.lib.ensemble [] = .ok () ∧
    Spec.wanted (some "KalmanFilter") = .kalman ∧ Spec.wanted (some "EnKF") = .ensemble ∧ Spec.wanted none = .ensemble ∧
    ((createFilter FilterEx.lib FilterEx.self ⟨some 7, some 300, some "EnKF", true, []⟩).1.filter.map fun f => (f.kind, f.R, f.Q)) =
      some (.ensemble 300 3 2 true, some 7, 9) ∧
    ((createFilter FilterEx.lib FilterEx.self ⟨none, none, some "KF", true, []⟩).1.filter.map fun f => (f.kind, f.R, f.Q)) =
      some (.kalman 4 2, none, 9) := by
  refine ⟨rfl, rfl, rfl, rfl, by decide, by decide, by decide, by decide, by decide⟩

/-! ## C92 -/

section Prep
variable [Field K] [LinearOrder K] {S : Solver K PP VV HX LS TT QQ} {D : Decl K} {dr : Draws K} {lib : Lib PP QQ}
  {ob : Obj K PP VV HX LS TT QQ} {self : Self PP QQ RR}

/-- **C92 (partial).** The start of `prep_estim` for a model with priors, with data, and a solution at the prior mean, for the linear and the nonlinear
setup, if the number of parameters and the number of estimated parameters are both not 10: succeeds; the current parameters are the prior means
for the estimated and the calibrated values for all other parameters, the solution is the one for these, and the filter is the right one, with their
covariance.

Missing: ten parameters, or ten estimated ones (`C92_prep_estim_refuted`); the inversion filter (C93). -/
theorem C92_prep_estim_partial (h : WF D) (p : Prior K) (hp : D.prior = some p) (he : p.entries.length = p.names.length)
    (h10 : D.names.length ≠ 10) (h10' : p.names.length ≠ 10) (hnot : "prior_mean" ∉ D.names ∧ "prior_mean" ∉ D.pfNames)
    (v₀ : List K) (hv : ob.a.par = some v₀) (hv₀ : v₀.length = D.names.length) (lMax kMax : Option Int)
    (hsol : ∀ v a, Spec.Overlay D p.names (priorMean p) v → a.lks = ob.a.lks → (genSysYaml S D ⟨lMax, kMax, false⟩ a (some v)).2 = none)
    (n : Nat) (hd : self.data = some n) (linear : Linear) (hlin : linear ≠ .inversion) (N : Nat) (reduced : Bool) (fargs : List (String × String))
    (hk : linear = .yes → lib.kalman fargs = .ok ()) (hen : linear = .no → lib.ensemble fargs = .ok ()) :
    ∃ ob' self' v w pp f, prepStart S D dr lMax kMax lib ob self linear N reduced fargs = .ok (ob', self') ∧
      ob'.a.par = some v ∧ Spec.Overlay D p.names w v ∧ w.length = p.names.length ∧
      (∀ j : Nat, w[j]? = (p.entries[j]?).map fun e => if e.uniform = true then (e.a + e.b) / 2 else e.a) ∧
      Spec.InSync S D lib.sq ob'.a ∧ ob'.a.ppar = some pp ∧ self'.filter = some f ∧ f.Q = lib.sq (S.cov pp) ∧ f.R = none ∧
      (linear = .yes → f.kind = .kalman self.dimx self.nobs) ∧
      (linear = .no → f.kind = .ensemble N (if reduced then self.dimq - self.dimeps else self.dimx) self.nobs reduced) := by
  have ho : ParOK D ob := by
    intro v hv'
    rw [hv, Option.some.injEq] at hv'
    subst hv'; exact hv₀
  have hpl : (priorMean p).length = p.names.length := by simp [priorMean, he]
  obtain ⟨h1, h2⟩ := overlay_of h p hp (priorMean p) hpl
  set v := setMany D.parFix p.arg (priorMean p) with hvdef
  set g : GenArgs := ⟨lMax, kMax, false⟩ with hg0
  have hget : getPar S D dr g ob (.str "prior_mean") none true 1 = ({ ob with a := { ob.a with par := some D.parFix } }, .ok (.vec v)) := by
    unfold getPar
    simp only [startPars_some hv, List.idxOf?_eq_none_iff.2 hnot.1, List.idxOf?_eq_none_iff.2 hnot.2]
    rw [if_neg (by decide), if_neg (by decide)]
    have hn : namedSet D dr ob "prior_mean" 1 = ({ ob with a := { ob.a with par := some D.parFix } }, .ok (.vec (priorMean p))) := by
      unfold namedSet
      simp [isMode, hp]
    simp only [hn, if_true, fullPar, h1]
  obtain ⟨ob', hset, hpar⟩ := C33_named_set_partial (S := S) (dr := dr) (g := g) (sq := lib.sq) (ob := ob) h p hp "prior_mean"
    (by intro hh; exact h10 (hh.symm.trans (by decide))) (by intro hh; exact h10' (hh.symm.trans (by decide)))
    (by rw [h2.1]) hget (hsol v _ h2 rfl)
  have hsync := setPar_sync h ho _ none rfl hset
  obtain ⟨v', pp, xb, lks, vv, hx, ls, t, k1, _, k3, k4, _⟩ := id hsync
  obtain ⟨f, hf, hgood⟩ := (C93_filter_types_partial { lib with cov := S.cov } { self with ppar := ob'.a.ppar }
    (filterCall linear N reduced fargs)).1 n pp hd k4 (by
      cases linear with
      | inversion => exact absurd rfl hlin
      | yes => exact Or.inl ⟨by show Spec.wanted (some "KalmanFilter") = _; decide, hk rfl⟩
      | no => exact Or.inr ⟨by show Spec.wanted (some "EnKF") = _; decide, hen rfl⟩)
  refine ⟨ob', { { self with ppar := ob'.a.ppar } with filter := some f }, v, priorMean p, pp, f, ?_, hpar, h2, hpl, ?_, hsync, k4, rfl,
    hgood.Q pp k4, ?_, ?_, ?_⟩
  · unfold prepStart
    rw [← hg0, hset]
    simp only [hf]
  · intro j
    simp only [priorMean, List.getElem?_map]
    congr 1
    funext e
    split_ifs <;> ring
  · rw [hgood.R]
    cases linear <;> rfl
  · rintro rfl
    exact hgood.kalman (by show Spec.wanted (some "KalmanFilter") = _; decide)
  · rintro rfl
    obtain ⟨N', h3, h4, _⟩ := hgood.ensemble (by show Spec.wanted (some "EnKF") = _; decide)
    have := h4 N rfl
    subst this
    exact h3

/-- With ten parameters, or ten estimated parameters, `prep_estim` raises, whatever the model, its solution and the settings. -/
theorem prepStart_ten (h10 : D.parFix.length = 10 ∨ ∃ p, D.prior = some p ∧ p.arg.length = 10) (lMax kMax : Option Int) (linear : Linear) (N : Nat)
    (reduced : Bool) (fargs : List (String × String)) :
    ∃ e, prepStart S D dr lMax kMax lib ob self linear N reduced fargs = .error e := by
  unfold prepStart setPar
  simp only
  by_cases hl : ("prior_mean" : String).length = D.parFix.length
  · rw [if_pos hl]
    exact ⟨_, rfl⟩
  · rcases h10 with h10 | ⟨p, hp, hpl⟩
    · exact absurd (h10 ▸ (by decide)) hl
    · rw [if_neg hl]
      simp only [hp]
      rw [if_pos (by rw [hpl]; decide)]
      exact ⟨_, rfl⟩

end Prep

/-- A model with ten parameters, one of them estimated, that can be solved. -/
def PrepEx.decl : Decl Rat where
  names := ["a", "b", "c", "d", "e", "f", "g", "h", "i", "j"]
  parFix := [0, 0, 0, 0, 0, 0, 0, 0, 0, 0]
  pfNames := []
  pf := fun _ => []
  prior := some ⟨["a"], [0], [⟨true, false, 0, 1⟩]⟩

def PrepEx.self : Self (List Rat) Rat Rat := ⟨some 2, 4, 5, 2, 2, ["y", "pi"], ["e", "u"], none, none, none⟩

def PrepEx.lib : Lib (List Rat) Rat := ⟨fun _ => 0, id, true, fun _ => .ok (), fun _ => .ok ()⟩

/-- **C92 (refuted).** A model with ten parameters that is solved without problems, also at the prior mean (as `get_par` and `set_par` of the vector show);
`prep_estim` raises. The same for every model with ten parameters, and every model with ten estimated parameters. -/
theorem C92_prep_estim_refuted :
    (∀ (S : Solver K PP VV HX LS TT QQ) (D : Decl K) (dr : Draws K) (lib : Lib PP QQ) (ob : Obj K PP VV HX LS TT QQ) (self : Self PP QQ RR)
      (_ : Field K) (_ : LinearOrder K) (lMax kMax : Option Int) (linear : Linear) (N : Nat) (reduced : Bool) (fargs : List (String × String)),
      (D.parFix.length = 10 ∨ ∃ p, D.prior = some p ∧ p.arg.length = 10) →
      ∃ e, prepStart S D dr lMax kMax lib ob self linear N reduced fargs = .error e) ∧
    (setPar ParEx.solver PrepEx.decl ParEx.draws ⟨none, none, false⟩ id ParEx.fresh (.vec PrepEx.decl.parFix) none).2 =
      .ok (.vec PrepEx.decl.parFix) ∧
    (let ob := (setPar ParEx.solver PrepEx.decl ParEx.draws ⟨none, none, false⟩ id ParEx.fresh (.vec PrepEx.decl.parFix) none).1
     (getPar ParEx.solver PrepEx.decl ParEx.draws ⟨none, none, false⟩ ob (.str "prior_mean") none true 1).2 =
        .ok (.vec [1/2, 0, 0, 0, 0, 0, 0, 0, 0, 0]) ∧
     (setPar ParEx.solver PrepEx.decl ParEx.draws ⟨none, none, false⟩ id ob (.vec [1/2, 0, 0, 0, 0, 0, 0, 0, 0, 0]) none).2 =
        .ok (.vec [1/2, 0, 0, 0, 0, 0, 0, 0, 0, 0]) ∧
     (prepStart ParEx.solver PrepEx.decl ParEx.draws none none PrepEx.lib ob PrepEx.self .no 300 true []).map (fun _ => ()) =
        .error .typeError) := by
  refine ⟨?_, by decide +kernel, by decide +kernel, by decide +kernel, by rfl⟩
  intro S D dr lib ob self _ _ lMax kMax linear N reduced fargs h10
  exact prepStart_ten h10 lMax kMax linear N reduced fargs

/-- The hypotheses of the partial theorem are met by a model with three parameters, two of them estimated. -/
theorem C92_hypotheses_met :
    WF ParEx.decl ∧ ParEx.solved.a.par = some [0, 1/2, 1/4] ∧
    (∀ a : Attrs Rat (List Rat) String Rat Rat Rat Rat, (genSysYaml ParEx.solver ParEx.decl ⟨none, none, false⟩ a (some [0, 1/3, 1/2])).2 = none) ∧
    PrepEx.self.data = some 2 ∧
    ((prepStart ParEx.solver ParEx.decl ParEx.draws none none PrepEx.lib ParEx.solved PrepEx.self .no 300 true []).map fun r =>
      (r.1.a.par, r.2.filter.map fun f => (f.kind, f.Q))) = .ok (some [0, 1/3, 1/2], some (.ensemble 300 3 2 true, 5/3)) := by
  refine ⟨ParEx.wf, ParEx.solved_par, ?_, rfl, by decide +kernel⟩
  intro a
  have hn : ∃ l, GenSys.newLks none none a.lks = .ok l := by
    cases a.lks with
    | none => exact ⟨_, rfl⟩
    | some l => exact ⟨_, rfl⟩
  obtain ⟨l, hl⟩ := hn
  unfold genSysYaml
  simp only [ParEx.solver, hl]
  rw [if_neg (by decide), if_neg (by decide +kernel), if_neg (by decide)]
  norm_num

/-! ## C94 -/

section ObsCov
variable {τ o : Type} [Fintype τ] [Nonempty τ] [DecidableEq o] [Fintype o]

theorem mean_affine [Field K] [CharZero K] (Z : Matrix τ o K) (c : K) (d : o → K) (j : o) :
    mean (fun t j => c * Z t j + d j) j = c * mean Z j + d j := by
  have hc : (Fintype.card τ : K) ≠ 0 := by
    exact_mod_cast Fintype.card_ne_zero
  unfold mean
  rw [Finset.sum_add_distrib, ← Finset.mul_sum, Finset.sum_const, Finset.card_univ, nsmul_eq_mul]
  field_simp

/-- **C94.** The covariance of the measurement errors: has no correlation; on its diagonal is the variance of each series (mean of the squares minus square
of the mean) times the square of the scale; all variances are nonnegative, so it is positive semidefinite, and a variance is zero (for a nonzero
scale) only if the series does not vary; levels of the data do not matter; scaling the data or `scale_obs` by `c` scales it by `c²`. -/
theorem C94_obs_cov [Field K] [LinearOrder K] [IsStrictOrderedRing K] (Z : Matrix τ o K) (scale : K) :
    (∀ i j, i ≠ j → obsCov Z scale i j = 0) ∧
    (∀ j, obsCov Z scale j j = ((∑ t, Z t j ^ 2) / (Fintype.card τ : K) - ((∑ t, Z t j) / (Fintype.card τ : K)) ^ 2) * scale ^ 2) ∧
    (∀ j, 0 ≤ obsCov Z scale j j) ∧
    (∀ x : o → K, 0 ≤ x ⬝ᵥ (obsCov Z scale).mulVec x) ∧
    (scale ≠ 0 → ∀ j, obsCov Z scale j j = 0 ↔ ∀ t t', Z t j = Z t' j) ∧
    (∀ (c : K) (d : o → K), obsCov (fun t j => c * Z t j + d j) scale = c ^ 2 • obsCov Z scale) ∧
    (∀ c : K, obsCov Z (c * scale) = c ^ 2 • obsCov Z scale) := by
  have hc : (0 : K) < (Fintype.card τ : K) := by
    exact_mod_cast Fintype.card_pos
  have hnn : ∀ j, 0 ≤ obsCov Z scale j j := by
    intro j
    simp only [obsCov, Matrix.diagonal_apply_eq, var]
    exact mul_nonneg (div_nonneg (Finset.sum_nonneg fun t _ => sq_nonneg _) hc.le) (sq_nonneg _)
  refine ⟨?_, ?_, hnn, ?_, ?_, ?_, ?_⟩
  · intro i j h
    exact Matrix.diagonal_apply_ne _ h
  · intro j
    simp only [obsCov, Matrix.diagonal_apply_eq, var]
    congr 1
    have : ∑ t, (Z t j - mean Z j) ^ 2 = ∑ t, Z t j ^ 2 - 2 * mean Z j * ∑ t, Z t j + (Fintype.card τ : K) * mean Z j ^ 2 := by
      simp_rw [sub_sq]
      rw [Finset.sum_add_distrib, Finset.sum_sub_distrib, Finset.sum_const, Finset.card_univ, nsmul_eq_mul, Finset.mul_sum]
      congr 2
      refine Finset.sum_congr rfl fun t _ => ?_
      ring
    rw [this, mean]
    field_simp
    ring
  · intro x
    unfold obsCov
    rw [dotProduct]
    refine Finset.sum_nonneg fun j _ => ?_
    rw [Matrix.mulVec_diagonal]
    have := hnn j
    simp only [obsCov, Matrix.diagonal_apply_eq] at this
    have h2 : x j * (var Z j * scale ^ 2 * x j) = (var Z j * scale ^ 2) * x j ^ 2 := by ring
    rw [h2]
    exact mul_nonneg this (sq_nonneg _)
  · intro hs j
    simp only [obsCov, Matrix.diagonal_apply_eq, var]
    rw [mul_eq_zero, or_iff_left (pow_ne_zero 2 hs), div_eq_zero_iff, or_iff_left hc.ne', Finset.sum_eq_zero_iff_of_nonneg fun t _ => sq_nonneg _]
    constructor
    · intro h t t'
      have h1 := h t (Finset.mem_univ _)
      have h2 := h t' (Finset.mem_univ _)
      rw [pow_eq_zero_iff (by norm_num), sub_eq_zero] at h1 h2
      rw [h1, h2]
    · intro h t _
      have hm : mean Z j = Z t j := by
        unfold mean
        rw [Finset.sum_congr rfl fun t' _ => h t' t, Finset.sum_const, Finset.card_univ, nsmul_eq_mul]
        field_simp
      rw [hm, sub_self]
      norm_num
  · intro c d
    ext i j
    by_cases hij : i = j
    · subst hij
      simp only [obsCov, Matrix.diagonal_apply_eq, Matrix.smul_apply, smul_eq_mul, var, mean_affine]
      have : ∀ t, (c * Z t i + d i - (c * mean Z i + d i)) ^ 2 = c ^ 2 * (Z t i - mean Z i) ^ 2 := fun t => by ring
      simp_rw [this]
      rw [← Finset.mul_sum]
      ring
    · simp [obsCov, Matrix.diagonal_apply_ne _ hij]
  · intro c
    ext i j
    by_cases hij : i = j
    · subst hij
      simp only [obsCov, Matrix.diagonal_apply_eq, Matrix.smul_apply, smul_eq_mul]
      ring
    · simp [obsCov, Matrix.diagonal_apply_ne _ hij]

/-- Two series over two periods, scale 1/10: variances 1 and 0. -/
example : obsCov (!![1, 5; 3, 5] : Matrix (Fin 2) (Fin 2) Rat) (1/10) = !![1/100, 0; 0, 0] := by decide +kernel

end ObsCov

/-! ## C95 -/

/-- **C95 (partial).** `get_eps_lin` for the ensemble filter, if the new state is given with the shocks appended (length `dimq`) and the previous one without (`dimq -
neps`): if the new state comes from the previous one by the linear solution `qmat[1, 0]` with some shocks, then these shocks are returned. `pinv` has to be a left inverse of
the shock columns (they are independent).

Missing: vectors of the lengths that the filter has (`C95_linear_shocks_refuted`). -/
theorem C95_linear_shocks_partial {z ε : Type} [Fintype z] [Fintype ε] [DecidableEq ε] [Field K] (pinv : Matrix (z ⊕ ε) ε K → Matrix ε (z ⊕ ε) K)
    (Q : Matrix (z ⊕ ε) (z ⊕ ε) K) (hpinv : pinv (Q.submatrix id Sum.inr) * Q.submatrix id Sum.inr = 1) (xp : z → K) (eps : ε → K) :
    epsLinEns pinv Q (Q.mulVec (Sum.elim xp eps)) xp = eps := by
  have h : Q.mulVec (Sum.elim xp eps) - (Q.submatrix id Sum.inl).mulVec xp = (Q.submatrix id Sum.inr).mulVec eps := by
    funext i
    simp [Matrix.mulVec, dotProduct, Fintype.sum_sum_type]
  unfold epsLinEns
  simp only
  rw [h, Matrix.mulVec_mulVec, hpinv, Matrix.one_mulVec]

/-- When `get_eps_lin` does not raise for the ensemble filter. -/
theorem epsLinLen_iff (ns neps n m : Nat) (he : 0 < neps) :
    (∃ k, epsLinLen ns neps n m = .ok k) ↔ m = ns ∧ (n = ns + neps ∨ n = 1) := by
  unfold epsLinLen matVecLen subLen
  by_cases h1 : ns = m
  · subst h1
    simp only [if_true, true_and]
    by_cases h2 : n = ns + neps
    · simp [h2]
    · by_cases h3 : n = 1
      · subst h3
        rw [if_neg h2, if_pos rfl]
        simp
      · rw [if_neg h2, if_neg h3]
        by_cases h4 : ns + neps = 1
        · rw [if_pos h4]
          simp [h2, h3]
          rw [if_neg (by omega)]
          simp
        · rw [if_neg h4]
          simp [h2, h3]
  · rw [if_neg h1]
    simp [Ne.symm h1]

/-- **C95 (refuted).** `get_eps_lin` with an ensemble filter, for two states as this filter has them (of length `dimq - neps` with `reduced_form`, else `dimx`): for every
model with at least one shock and at least two states it raises, for the full states also with one state (if there are variables besides the
states). With `reduced_form` and a single state it returns something, although the lengths do not fit. -/
theorem C95_linear_shocks_refuted (dimp ns neps : Nat) (he : 0 < neps) :
    (2 ≤ ns → ∃ e, epsLinLen ns neps ns ns = .error e) ∧
    (0 < dimp → ∃ e, epsLinLen ns neps (dimp + ns) (dimp + ns) = .error e) ∧
    epsLinLen 1 neps 1 1 = .ok neps := by
  refine ⟨?_, ?_, ?_⟩
  · intro h
    have := (epsLinLen_iff ns neps ns ns he).not.2 (by omega)
    cases hc : epsLinLen ns neps ns ns with
    | error e => exact ⟨e, rfl⟩
    | ok k => exact absurd ⟨k, hc⟩ this
  · intro h
    have := (epsLinLen_iff ns neps (dimp + ns) (dimp + ns) he).not.2 (by omega)
    cases hc : epsLinLen ns neps (dimp + ns) (dimp + ns) with
    | error e => exact ⟨e, rfl⟩
    | ok k => exact absurd ⟨k, hc⟩ this
  · unfold epsLinLen matVecLen subLen
    rw [if_pos rfl]
    simp only
    rw [if_neg (by omega), if_pos trivial]
    simp

/-- Concrete numbers: three states, two shocks, four other variables. -/
example : epsLinLen 3 2 3 3 = .error .valueError ∧ epsLinLen 3 2 (4 + 3) (4 + 3) = .error .valueError ∧ epsLinLen 3 2 5 3 = .ok 2 := by decide

/-- One state, one shock; the pseudoinverse of the column `(2, 0)` is `(1/2, 0)`. -/
example : let Q : Matrix (Fin 1 ⊕ Fin 1) (Fin 1 ⊕ Fin 1) Rat := Matrix.fromBlocks !![1/2] !![2] !![0] !![0]
    let pinv : Matrix (Fin 1 ⊕ Fin 1) (Fin 1) Rat → Matrix (Fin 1) (Fin 1 ⊕ Fin 1) Rat := fun _ => Matrix.of fun _ => Sum.elim ![1/2] ![0]
    pinv (Q.submatrix id Sum.inr) * Q.submatrix id Sum.inr = 1 ∧
    epsLinEns pinv Q (Q.mulVec (Sum.elim ![4] ![3])) ![4] = ![3] := by decide +kernel

end Pydsge
