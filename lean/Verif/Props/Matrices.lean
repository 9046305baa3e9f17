import Verif.Lemmas.Deriv
import Verif.Model.Tools
import Verif.Model.GenSys
import Verif.Props.Sim
import Mathlib.Tactic.NormNum
import Mathlib.Data.Rat.Cast.Order
import Mathlib.Algebra.CharZero.Infinite

/-!
# C39, C74, C21: matrices of the equations, constants, observables
-/

set_option autoImplicit false
set_option linter.unusedSectionVars false
set_option linter.unusedSimpArgs false

namespace Pydsge
open Parser Spec GenSys Engine Tools

variable {K : Type} [Field K]

theorem getMatrices_ok (I : Interp K) (con : Bool) (vars shocks : List String) (eqs : List (Eqn K)) (M : Mats K)
    (h : getMatrices I con vars shocks eqs = .ok M) (i : Nat) (e : Eqn K) (he : eqs[i]? = some e) :
    (∀ s ∈ e.syms, (∃ v ∈ vars, s = vsym v 1 ∨ s = vsym v 0 ∨ s = vsym v (-1)) ∨ ∃ n ∈ shocks, s = ssym n) ∧
    (∀ v, v ∈ M.vars ↔ v ∈ vars) ∧ M.vars.Nodup ∧
    (∀ v, M.AA i v = coef I e.setEqZero (vsym v 1) ∧ M.BB i v = coef I e.setEqZero (vsym v 0) ∧
      M.CC i v = coef I e.setEqZero (vsym v (-1)) ∧ M.PSI i v = -coef I e.setEqZero (ssym v)) := by
  unfold getMatrices at h
  simp only at h
  split at h
  · cases h
  · rename_i u hc
    simp only [Except.ok.injEq] at h
    subst h
    refine ⟨?_, fun v => mem_unique vars v, unique_nodup vars, fun v => by simp only [he]; exact ⟨trivial, trivial, trivial, trivial⟩⟩
    have hrow := (checkRows_ok _ _ _ _ _).1 hc i e he
    unfold rowCheck at hrow
    split at hrow
    · cases hrow
    · rename_i hbad
      intro s hs
      simp only [List.any_eq_true, not_exists, not_and, decide_eq_true_eq, not_or, not_not] at hbad
      obtain ⟨h1, h2, h3, h4⟩ := hbad s hs
      simp only [List.mem_map, mem_unique] at h1 h2 h3 h4
      cases hk : s.kind with
      | shock => obtain ⟨n, hn, rfl⟩ := h4 hk; exact Or.inr ⟨n, hn, rfl⟩
      | «variable» =>
        rcases lt_trichotomy s.date 0 with hd | hd | hd
        · obtain ⟨n, hn, rfl⟩ := h3 hk hd; exact Or.inl ⟨n, hn, Or.inr (Or.inr rfl)⟩
        · obtain ⟨n, hn, rfl⟩ := h2 hk hd; exact Or.inl ⟨n, hn, Or.inr (Or.inl rfl)⟩
        · obtain ⟨n, hn, rfl⟩ := h1 hk hd; exact Or.inl ⟨n, hn, Or.inl rfl⟩

/-- The matrices give the equation up to its constant. -/
theorem matrices_affine [Infinite K] (I : Interp K) (con : Bool) (vars shocks : List String) (eqs : List (Eqn K)) (M : Mats K)
    (h : getMatrices I con vars shocks eqs = .ok M) (i : Nat) (e : Eqn K) (he : eqs[i]? = some e) (hp : e.setEqZero.PolyForm)
    (c : TSym → K) (a : K) (ha : e.setEqZero.AffineWith I c a) (ρ : TSym → K) :
    e.lhs.eval I ρ - e.rhs.eval I ρ =
      M.vars.toFinset.sum (fun v => M.AA i v * ρ (vsym v 1)) + M.vars.toFinset.sum (fun v => M.BB i v * ρ (vsym v)) +
        M.vars.toFinset.sum (fun v => M.CC i v * ρ (vsym v (-1))) - shocks.toFinset.sum (fun s => M.PSI i s * ρ (ssym s)) + a := by
  classical
  obtain ⟨hs, hv, hnd, hm⟩ := getMatrices_ok I con vars shocks eqs M h i e he
  have hev : e.lhs.eval I ρ - e.rhs.eval I ρ = e.setEqZero.eval I ρ := rfl
  rw [hev, eval_coef I e.setEqZero hp c a ha (M.vars.toFinset.image (fun v => vsym v 1) ∪ M.vars.toFinset.image (fun v => vsym v 0) ∪
    M.vars.toFinset.image (fun v => vsym v (-1)) ∪ shocks.toFinset.image (fun s => ssym s)), sum_symbols,
    ← Expr.affine_const I _ c a ha]
  · simp only [(hm _).1, (hm _).2.1, (hm _).2.2.1, (hm _).2.2.2, neg_mul, Finset.sum_neg_distrib, sub_neg_eq_add]
  · intro s hse
    have hse' : s ∈ e.syms := hse
    simp only [Finset.mem_union, Finset.mem_image, List.mem_toFinset, hv]
    rcases hs s hse' with ⟨v, hvm, rfl | rfl | rfl⟩ | ⟨n, hn, rfl⟩
    · exact Or.inl (Or.inl (Or.inl ⟨v, hvm, rfl⟩))
    · exact Or.inl (Or.inl (Or.inr ⟨v, hvm, rfl⟩))
    · exact Or.inl (Or.inr ⟨v, hvm, rfl⟩)
    · exact Or.inr ⟨n, hn, rfl⟩

/-- **C39**: for an equation that is linear in variables and shocks, `lhs - rhs` is `AA x(+1) + BB x + CC x(-1) - PSI eps`, for all values of
variables and shocks and all parameters. -/
theorem C39_matrices_reproduce [Infinite K] (I : Interp K) (con : Bool) (vars shocks : List String) (eqs : List (Eqn K)) (M : Mats K)
    (h : getMatrices I con vars shocks eqs = .ok M) (i : Nat) (e : Eqn K) (he : eqs[i]? = some e) (hp : e.setEqZero.PolyForm)
    (c : TSym → K) (ha : e.setEqZero.AffineWith I c 0) (ρ : TSym → K) :
    e.lhs.eval I ρ - e.rhs.eval I ρ =
      M.vars.toFinset.sum (fun v => M.AA i v * ρ (vsym v 1)) + M.vars.toFinset.sum (fun v => M.BB i v * ρ (vsym v)) +
        M.vars.toFinset.sum (fun v => M.CC i v * ρ (vsym v (-1))) - shocks.toFinset.sum (fun s => M.PSI i s * ρ (ssym s)) := by
  rw [matrices_affine I con vars shocks eqs M h i e he hp c 0 ha ρ, add_zero]

/-- **C39**, constraint: a linear constraint without leads is `bb x + bb_lag x(-1) + bb_PSI eps`, negated. -/
theorem C39_constraint_row [Infinite K] (I : Interp K) (vars shocks : List String) (ce : Eqn K) (R : ConRow K)
    (h : getConstraint I vars shocks ce = .ok R) (hp : ce.setEqZero.PolyForm) (c : TSym → K) (ha : ce.setEqZero.AffineWith I c 0)
    (ρ : TSym → K) :
    ce.rhs.eval I ρ - ce.lhs.eval I ρ =
      vars.toFinset.sum (fun v => R.bb v * ρ (vsym v)) + vars.toFinset.sum (fun v => R.bbLag v * ρ (vsym v (-1))) +
        shocks.toFinset.sum (fun s => R.bbPSI s * ρ (ssym s)) := by
  classical
  unfold getConstraint at h
  split at h
  · cases h
  · rename_i hfwd
    split at h
    · cases h
    · rename_i hbad
      simp only [Except.ok.injEq] at h
      subst h
      simp only [List.any_eq_true, not_exists, not_and, decide_eq_true_eq, not_or, not_not] at hbad hfwd
      have hev : ce.rhs.eval I ρ - ce.lhs.eval I ρ = -ce.setEqZero.eval I ρ := by simp [Eqn.setEqZero, Expr.eval]
      have hz : ∀ v ∈ vars.toFinset, coef I ce.setEqZero (vsym v 1) * ρ (vsym v 1) = 0 := by
        intro v _
        have : vsym v 1 ∉ ce.setEqZero.syms := by
          intro hm
          exact hfwd _ hm rfl (by simp [vsym, TSym.mk'])
        rw [coef, if_neg this, zero_mul]
      rw [hev, eval_coef I ce.setEqZero hp c 0 ha (vars.toFinset.image (fun v => vsym v 1) ∪ vars.toFinset.image (fun v => vsym v 0) ∪
        vars.toFinset.image (fun v => vsym v (-1)) ∪ shocks.toFinset.image (fun s => ssym s)), sum_symbols,
        ← Expr.affine_const I _ c 0 ha, Finset.sum_eq_zero hz]
      · simp only [neg_mul, Finset.sum_neg_distrib]; ring
      · intro s hs
        obtain ⟨h1, h2⟩ := hbad s hs
        simp only [List.mem_map, List.mem_append] at h1 h2
        simp only [Finset.mem_union, Finset.mem_image, List.mem_toFinset]
        cases hk : s.kind with
        | shock => obtain ⟨n, hn, rfl⟩ := h2 hk; exact Or.inr ⟨n, hn, rfl⟩
        | «variable» =>
          rcases h1 hk with ⟨n, hn, rfl⟩ | ⟨n, hn, rfl⟩
          · exact Or.inl (Or.inl (Or.inr ⟨n, hn, rfl⟩))
          · exact Or.inl (Or.inr ⟨n, hn, rfl⟩)

/-! ### Example -/

namespace MatEx

/-- `x = rho*x(-1) + (1 - rho)*y(+1)/sig - e`, with `y` constrained. -/
def eq1 : Eqn Rat :=
  ⟨.sym (vsym "x"), .sub (.add (.mul (.par "rho") (.sym (vsym "x" (-1))))
    (.div (.mul (.sub (.num 1) (.par "rho")) (.sym (vsym "y" 1))) (.par "sig"))) (.sym (ssym "e"))⟩

def I : Interp Rat := ⟨fun n => if n = "rho" then 1/2 else 2, fun _ _ _ => 0⟩

theorem accepted : (getMatrices I true ["x", "y"] ["e"] [eq1]).toOption.isSome = true := by decide +kernel

def c : TSym → Rat := fun s => if s = vsym "x" then 1 else if s = vsym "x" (-1) then -1/2 else if s = vsym "y" 1 then -1/4 else 1

theorem poly : eq1.setEqZero.PolyForm := by simp [eq1, Eqn.setEqZero, Expr.PolyForm, Expr.syms]

theorem linear : eq1.setEqZero.AffineWith I c 0 := by
  intro ρ
  have hs : eq1.setEqZero.syms.toFinset = {vsym "x", vsym "x" (-1), vsym "y" 1, ssym "e"} := by decide +kernel
  rw [hs, Finset.sum_insert (by decide +kernel), Finset.sum_insert (by decide +kernel), Finset.sum_insert (by decide +kernel),
    Finset.sum_singleton]
  have h1 : c (vsym "x") = 1 := by decide +kernel
  have h2 : c (vsym "x" (-1)) = -1/2 := by decide +kernel
  have h3 : c (vsym "y" 1) = -1/4 := by decide +kernel
  have h4 : c (ssym "e") = 1 := by decide +kernel
  have h5 : I.par "rho" = 1/2 := by decide +kernel
  have h6 : I.par "sig" = 2 := by decide +kernel
  rw [h1, h2, h3, h4]
  simp only [eq1, Eqn.setEqZero, Expr.eval, h5, h6]
  ring

/-- The hypotheses of C39 hold for this equation. -/
example : ∃ M, getMatrices I true ["x", "y"] ["e"] [eq1] = .ok M ∧ ∀ ρ, eq1.lhs.eval I ρ - eq1.rhs.eval I ρ =
      M.vars.toFinset.sum (fun v => M.AA 0 v * ρ (vsym v 1)) + M.vars.toFinset.sum (fun v => M.BB 0 v * ρ (vsym v)) +
        M.vars.toFinset.sum (fun v => M.CC 0 v * ρ (vsym v (-1))) - (["e"] : List String).toFinset.sum (fun s => M.PSI 0 s * ρ (ssym s)) := by
  have h := accepted
  cases hM : getMatrices I true ["x", "y"] ["e"] [eq1] with
  | error e => rw [hM] at h; cases h
  | ok M => exact ⟨M, rfl, C39_matrices_reproduce I true _ _ _ M hM 0 eq1 rfl poly c linear⟩

/-- `x = 1 + x(-1)`, with `y` constrained. -/
def eqC : Eqn Rat := ⟨.sym (vsym "x"), .add (.num 1) (.sym (vsym "x" (-1)))⟩

end MatEx

/-- **C74** (what is left of it): the matrices reproduce an affine equation up to its constant; they reproduce it exactly iff the constant is zero. -/
theorem C74_constants_partial [Infinite K] (I : Interp K) (con : Bool) (vars shocks : List String) (eqs : List (Eqn K)) (M : Mats K)
    (h : getMatrices I con vars shocks eqs = .ok M) (i : Nat) (e : Eqn K) (he : eqs[i]? = some e) (hp : e.setEqZero.PolyForm)
    (c : TSym → K) (a : K) (ha : e.setEqZero.AffineWith I c a) :
    (∀ ρ, e.lhs.eval I ρ - e.rhs.eval I ρ =
      M.vars.toFinset.sum (fun v => M.AA i v * ρ (vsym v 1)) + M.vars.toFinset.sum (fun v => M.BB i v * ρ (vsym v)) +
        M.vars.toFinset.sum (fun v => M.CC i v * ρ (vsym v (-1))) - shocks.toFinset.sum (fun s => M.PSI i s * ρ (ssym s))) ↔ a = 0 := by
  constructor
  · intro hh
    have h1 := hh (fun _ => 0)
    rw [matrices_affine I con vars shocks eqs M h i e he hp c a ha] at h1
    simpa using h1
  · rintro rfl ρ
    exact C39_matrices_reproduce I con vars shocks eqs M h i e he hp c ha ρ

/-- **C74** refuted: `x = 1 + x(-1)` is accepted, and the matrices say `x = x(-1)`. -/
theorem C74_constants_refuted : ∃ (I : Interp Rat) (vars shocks : List String) (e : Eqn Rat) (M : Mats Rat) (ρ : TSym → Rat),
    getMatrices I true vars shocks [e] = .ok M ∧ e.lhs.eval I ρ = e.rhs.eval I ρ ∧
      M.vars.toFinset.sum (fun v => M.AA 0 v * ρ (vsym v 1)) + M.vars.toFinset.sum (fun v => M.BB 0 v * ρ (vsym v)) +
        M.vars.toFinset.sum (fun v => M.CC 0 v * ρ (vsym v (-1))) - shocks.toFinset.sum (fun s => M.PSI 0 s * ρ (ssym s)) ≠ 0 := by
  have h : (getMatrices MatEx.I true ["x", "y"] [] [MatEx.eqC]).toOption.isSome = true := by decide +kernel
  cases hM : getMatrices MatEx.I true ["x", "y"] [] [MatEx.eqC] with
  | error e => rw [hM] at h; cases h
  | ok M =>
    have hpoly : MatEx.eqC.setEqZero.PolyForm := by simp [MatEx.eqC, Eqn.setEqZero, Expr.PolyForm, Expr.syms]
    have haff : MatEx.eqC.setEqZero.AffineWith MatEx.I (fun s => if s = vsym "x" then 1 else -1) (-1) := by
      intro ρ
      have hs : MatEx.eqC.setEqZero.syms.toFinset = {vsym "x", vsym "x" (-1)} := by decide +kernel
      rw [hs, Finset.sum_insert (by decide +kernel), Finset.sum_singleton]
      have h1 : vsym "x" (-1) ≠ vsym "x" := by decide
      simp only [if_true, if_neg h1, MatEx.eqC, Eqn.setEqZero, Expr.eval]
      ring
    let ρ : TSym → Rat := fun s => if s = vsym "x" then 1 else 0
    have hsol : MatEx.eqC.lhs.eval MatEx.I ρ = MatEx.eqC.rhs.eval MatEx.I ρ := by decide +kernel
    refine ⟨MatEx.I, ["x", "y"], [], MatEx.eqC, M, ρ, hM, hsol, ?_⟩
    have := matrices_affine MatEx.I true _ _ _ M hM 0 MatEx.eqC rfl hpoly _ _ haff ρ
    rw [hsol, sub_self] at this
    intro h0
    rw [h0] at this
    norm_num at this

/-! ### Observables -/

/-- A measurement equation contains a name. -/
def Spec.HasName : Expr K → Prop
  | .num _ => False
  | .par _ => True
  | .sym _ => True
  | .add a b | .sub a b | .mul a b | .div a b | .app _ a b => Spec.HasName a ∨ Spec.HasName b
  | .neg a | .pow a _ => Spec.HasName a

omit [Field K] in
theorem plainNum_iff (e : Expr K) : plainNum e = true ↔ ¬ Spec.HasName e := by
  induction e <;> simp_all [plainNum, Spec.HasName]

theorem getObs_ok (I : Interp K) (vars fvars : List String) (oe : Expr K) (z0 : String → K) (z1 : K) (h : getObs I vars fvars oe = .ok (z0, z1)) :
    (∀ s ∈ oe.syms, ∃ n ∈ vars, s = vsym n ∨ s = vsym n (-1)) ∧ (fun v => coef I oe (vsym v 0)) = z0 ∧ oe.eval I (fun _ => 0) = z1 := by
  unfold getObs at h
  split at h
  · cases h
  split at h
  · cases h
  split at h
  · cases h
  split at h
  · cases h
  rename_i hbad
  simp only [Except.ok.injEq, Prod.mk.injEq] at h
  refine ⟨fun s hs => ?_, h⟩
  simp only [List.any_eq_true, not_exists, not_and, decide_eq_true_eq, not_or, not_not] at hbad
  have h2 := (hbad s hs).2
  simp only [List.mem_map, List.mem_append] at h2
  obtain ⟨n, hn, rfl⟩ | ⟨n, hn, rfl⟩ := h2
  · exact ⟨n, hn, .inl rfl⟩
  · exact ⟨n, hn, .inr rfl⟩

/-- **C21**, which measurement equations are accepted: those that contain a name, and no model symbol but current and once lagged variables. -/
theorem C21_accepted_iff (I : Interp K) (vars fvars : List String) (oe : Expr K) :
    (∃ zz, getObs I vars fvars oe = .ok zz) ↔ Spec.HasName oe ∧ ∀ s ∈ oe.syms, ∃ n ∈ vars, s = vsym n ∨ s = vsym n (-1) := by
  constructor
  · rintro ⟨zz, h⟩
    refine ⟨?_, (getObs_ok I vars fvars oe zz.1 zz.2 h).1⟩
    by_contra hn
    unfold getObs at h
    rw [if_pos ((plainNum_iff oe).2 hn)] at h
    cases h
  · rintro ⟨hn, hs⟩
    refine ⟨(fun v => coef I oe (vsym v 0), oe.eval I (fun _ => 0)), ?_⟩
    unfold getObs
    rw [if_neg (fun h => (plainNum_iff oe).1 h hn), if_neg, if_neg, if_neg]
    · simp only [List.any_eq_true, not_exists, not_and, decide_eq_true_eq, not_or, not_not]
      intro s h
      obtain ⟨n, hn, rfl | rfl⟩ := hs s h
      · exact ⟨by simp [vsym, TSym.mk'], List.mem_append_left _ (List.mem_map_of_mem hn)⟩
      · exact ⟨by simp [vsym, TSym.mk'], List.mem_append_right _ (List.mem_map_of_mem hn)⟩
    · simp only [List.any_eq_true, not_exists, not_and, decide_eq_true_eq, not_lt]
      intro s h _
      obtain ⟨n, hn, rfl | rfl⟩ := hs s h <;> simp [vsym, TSym.mk']
    · simp only [List.any_eq_true, not_exists, not_and, decide_eq_true_eq]
      intro s h _ hd hv
      obtain ⟨n, hn, rfl | rfl⟩ := hs s h
      · exact absurd (List.mem_map_of_mem hn) hv
      · simp [vsym, TSym.mk'] at hd

/-- **C21**, what is left out: of an accepted linear measurement equation, exactly the lagged part. -/
theorem C21_lags_lost [Infinite K] (I : Interp K) (vars fvars : List String) (oe : Expr K) (z0 : String → K) (z1 : K)
    (h : getObs I vars fvars oe = .ok (z0, z1)) (hp : oe.PolyForm) (c : TSym → K) (a : K) (ha : oe.AffineWith I c a) (ρ : TSym → K) :
    oe.eval I ρ = vars.toFinset.sum (fun v => z0 v * ρ (vsym v)) + z1 +
      (oe.syms.toFinset.filter (fun s => s.date = -1)).sum (fun s => c s * ρ s) := by
  classical
  obtain ⟨h2, rfl, rfl⟩ := getObs_ok I vars fvars oe z0 z1 h
  have hz : vars.toFinset.sum (fun v => coef I oe (vsym v 0) * ρ (vsym v)) =
      (oe.syms.toFinset.filter (fun s => ¬ s.date = -1)).sum (fun s => c s * ρ s) := by
    rw [← Finset.sum_image (f := fun s => coef I oe s * ρ s) (g := fun v => vsym v 0) (s := vars.toFinset)
      (fun a _ b _ h => (vsym_inj.1 h).1)]
    symm
    rw [Finset.sum_congr rfl (g := fun s => coef I oe s * ρ s)]
    · refine Finset.sum_subset ?_ ?_
      · intro s hs
        simp only [Finset.mem_filter, List.mem_toFinset] at hs
        obtain ⟨n, hn, rfl | rfl⟩ := h2 s hs.1
        · simp only [Finset.mem_image, List.mem_toFinset]; exact ⟨n, hn, rfl⟩
        · exact absurd rfl hs.2
      · intro s hs hns
        simp only [Finset.mem_image, List.mem_toFinset] at hs
        obtain ⟨n, hn, rfl⟩ := hs
        have : vsym n 0 ∉ oe.syms := fun hm => hns (by
          simp only [Finset.mem_filter, List.mem_toFinset]
          exact ⟨hm, by simp [vsym, TSym.mk']⟩)
        rw [coef, if_neg this, zero_mul]
    · intro s hs
      have hs' : s ∈ oe.syms := by simpa using (Finset.mem_filter.1 hs).1
      rw [coef, if_pos hs', Expr.diff_eq_coef I oe hp c a ha s hs']
  rw [hz, ha ρ, Expr.affine_const I oe c a ha,
    ← Finset.sum_filter_add_sum_filter_not oe.syms.toFinset (fun s => s.date = -1)]
  ring

/-- A linear measurement equation in current variables is what `ZZ0` and `ZZ1` say. -/
theorem getObs_value [Infinite K] (I : Interp K) (vars fvars : List String) (oe : Expr K) (z0 : String → K) (z1 : K)
    (h : getObs I vars fvars oe = .ok (z0, z1)) (hp : oe.PolyForm) (c : TSym → K) (a : K) (ha : oe.AffineWith I c a)
    (hcur : ∀ s ∈ oe.syms, s.date = 0) (ρ : TSym → K) :
    oe.eval I ρ = vars.toFinset.sum (fun v => z0 v * ρ (vsym v)) + z1 := by
  classical
  obtain ⟨h2, rfl, rfl⟩ := getObs_ok I vars fvars oe z0 z1 h
  rw [eval_coef I oe hp c a ha (vars.toFinset.image (fun v => vsym v 0)), Finset.sum_image]
  · intro a _ b _ h; exact (vsym_inj.1 h).1
  · intro s hs
    obtain ⟨n, hn, rfl | rfl⟩ := h2 s hs
    · simp only [Finset.mem_image, List.mem_toFinset]; exact ⟨n, hn, rfl⟩
    · have := hcur _ hs; simp [vsym, TSym.mk'] at this

section
variable {E ν ε o z p H L : Type} [Fintype E] [Fintype ν] [Fintype ε] [Fintype o] [Fintype z] [Fintype p] [Fintype H]
  [DecidableEq E] [DecidableEq ν] [DecidableEq ε] [DecidableEq z] [DecidableEq p] [DecidableEq H]
  [Field L] [LinearOrder L] [IsStrictOrderedRing L]

open GenSys Tools

/-- `obs` of a state, variable by variable: nothing is lost if every variable with a coefficient is a state or a control. -/
theorem oFunc_value (tol : L) (m : Input E ν ε o L) [DecidablePred (inall tol m)] (lay : Layout tol m H z p) (mdl : Model z ε p o L)
    (hhx : mdl.hx = hx lay) (i : o) (X : ν ⊕ H → L)
    (hin : ∀ v, m.ZZ0 i v ≠ 0 → inq tol m lay.hyb (.inl (.inl v)) ∨ inp tol m lay.hyb (.inl (.inl v))) :
    oFunc mdl (Sum.elim (fun j => X (lay.pi j)) (fun j => X (lay.zi j))) i = ∑ v, m.ZZ0 i v * X (.inl v) + m.ZZ1 i := by
  classical
  have hpq : ∀ j k, lay.pi j ≠ lay.zi k := by
    intro j k h
    exact ((lay.pi_range _).1 ⟨j, h⟩).2 ((lay.zi_range _).1 ⟨k, rfl⟩)
  let pad : ν ⊕ H → L := fun w => match w with
    | .inl v => m.ZZ0 i v
    | .inr _ => 0
  have h1 : oFunc mdl (Sum.elim (fun j => X (lay.pi j)) (fun j => X (lay.zi j))) i
      = ∑ j, pad (lay.pi j) * X (lay.pi j) + ∑ j, pad (lay.zi j) * X (lay.zi j) + m.ZZ1 i := by
    simp only [oFunc, hhx, hx, Pi.add_apply, Matrix.vecMul, dotProduct, Sum.elim_inl, Sum.elim_inr]
    congr 1
    congr 1
    · exact Finset.sum_congr rfl fun j _ => mul_comm _ _
    · exact Finset.sum_congr rfl fun j _ => mul_comm _ _
  rw [h1]
  congr 1
  have h2 : ∑ v, m.ZZ0 i v * X (.inl v) = ∑ w, pad w * X w := by
    rw [Fintype.sum_sum_type]
    simp [pad]
  rw [h2]
  have h3 : ∑ j, pad (lay.pi j) * X (lay.pi j) = (Finset.univ.image lay.pi).sum (fun w => pad w * X w) := by
    rw [Finset.sum_image (fun a _ b _ h => lay.pi_inj h)]
  have h4 : ∑ j, pad (lay.zi j) * X (lay.zi j) = (Finset.univ.image lay.zi).sum (fun w => pad w * X w) := by
    rw [Finset.sum_image (fun a _ b _ h => lay.zi_inj h)]
  rw [h3, h4, ← Finset.sum_union]
  · refine Finset.sum_subset (Finset.subset_univ _) ?_
    intro w _ hw
    simp only [Finset.mem_union, Finset.mem_image, Finset.mem_univ, true_and, not_or] at hw
    cases w with
    | inr h => simp [pad]
    | inl v =>
      have : m.ZZ0 i v = 0 := by
        by_contra hne
        rcases hin v hne with h | h
        · exact hw.2 ((lay.zi_range _).2 h)
        · exact hw.1 ((lay.pi_range _).2 h)
      simp [pad, this]
  · rw [Finset.disjoint_left]
    intro w ha hb
    simp only [Finset.mem_image, Finset.mem_univ, true_and] at ha hb
    obtain ⟨j, rfl⟩ := ha
    obtain ⟨k, hk⟩ := hb
    exact hpq j k hk.symm

/-- A variable that enters some model equation with a coefficient that is not tiny is a state or a control. -/
theorem not_lost (tol : L) (m : Input E ν ε o L) [DecidablePred (inall tol m)] (lay : Layout tol m H z p) (v : ν)
    (hv : ∃ e, ¬ fast0 tol (m.AA0 e v) ∨ ¬ fast0 tol (m.BB0 e v) ∨ ¬ fast0 tol (m.CC0 e v)) :
    inq tol m lay.hyb (.inl (.inl v)) ∨ inp tol m lay.hyb (.inl (.inl v)) := by
  classical
  by_cases hq : inq tol m lay.hyb (.inl (.inl v))
  · exact Or.inl hq
  · right
    refine ⟨?_, hq⟩
    obtain ⟨e, h | h | h⟩ := hv
    · exact Or.inl (fun hc => h (hc (.inl (.inl e))))
    · exact Or.inr (fun hc => h (hc (.inl (.inl e))))
    · by_cases hin : inall tol m v
      · exact Or.inl (fun hc => hin.1 (fun e => hc (.inl (.inl e))))
      · exfalso
        apply hq
        left
        intro hc
        apply h
        have := hc (.inl (.inl e))
        simpa [CC1, hin, fast0] using this

/-- **C21** (holds for measurement equations in current values): `obs` of a state evaluates the declared measurement equation at the values that
the variables take in the state; `name` links the variables of the matrices to their names, `X` are the values of variables and auxiliary
variables in the state. -/
theorem C21_observables_partial (tol : L) (m : Input E ν ε o L) [DecidablePred (inall tol m)] (lay : Layout tol m H z p)
    (mdl : Model z ε p o L) (hhx : mdl.hx = hx lay) (i : o) (X : ν ⊕ H → L)
    (I : Interp L) (vars fvars : List String) (name : ν → String) (hname : Function.Injective name) (hrange : ∀ n, n ∈ vars ↔ ∃ v, name v = n)
    (oe : Expr L) (z0 : String → L) (z1 : L) (hobs : getObs I vars fvars oe = .ok (z0, z1))
    (hZ0 : ∀ v, m.ZZ0 i v = z0 (name v)) (hZ1 : m.ZZ1 i = z1)
    (hused : ∀ v, m.ZZ0 i v ≠ 0 → ∃ e, ¬ fast0 tol (m.AA0 e v) ∨ ¬ fast0 tol (m.BB0 e v) ∨ ¬ fast0 tol (m.CC0 e v))
    (hp : oe.PolyForm) (c : TSym → L) (a : L) (ha : oe.AffineWith I c a) (hcur : ∀ s ∈ oe.syms, s.date = 0)
    (ρ : TSym → L) (hρ : ∀ v, ρ (vsym (name v)) = X (.inl v)) :
    oFunc mdl (Sum.elim (fun j => X (lay.pi j)) (fun j => X (lay.zi j))) i = oe.eval I ρ := by
  classical
  rw [oFunc_value tol m lay mdl hhx i X (fun v hv => not_lost tol m lay v (hused v hv)),
    getObs_value I vars fvars oe z0 z1 hobs hp c a ha hcur ρ, hZ1]
  congr 1
  have : vars.toFinset = Finset.univ.image name := by
    ext n; simp [hrange]
  rw [this, Finset.sum_image (fun a _ b _ h => hname h)]
  exact Finset.sum_congr rfl fun v _ => by rw [hZ0, hρ]

end

/-- **C21** refuted: the measurement equation `y - y(-1)` is accepted, and its lag is dropped. -/
theorem C21_observables_refuted : ∃ (I : Interp Rat) (vars : List String) (oe : Expr Rat) (z0 : String → Rat) (z1 : Rat) (ρ : TSym → Rat),
    oe.PolyForm ∧ (∃ c, oe.AffineWith I c 0) ∧ getObs I vars [] oe = .ok (z0, z1) ∧
      oe.eval I ρ ≠ vars.toFinset.sum (fun v => z0 v * ρ (vsym v)) + z1 := by
  let oe : Expr Rat := .sub (.sym (vsym "y")) (.sym (vsym "y" (-1)))
  have h : (getObs MatEx.I ["y"] [] oe).toOption.isSome = true := by decide +kernel
  cases hM : getObs MatEx.I ["y"] [] oe with
  | error e => rw [hM] at h; cases h
  | ok zz =>
    obtain ⟨z0, z1⟩ := zz
    have hz : z0 "y" = 1 ∧ z1 = 0 := by
      have h1 : (getObs MatEx.I ["y"] [] oe).toOption.map (fun zz => (zz.1 "y", zz.2)) = some (1, 0) := by decide +kernel
      rw [hM] at h1
      simpa [Except.toOption] using h1
    refine ⟨MatEx.I, ["y"], oe, z0, z1, fun _ => 1, ?_, ⟨fun s => if s = vsym "y" then 1 else -1, ?_⟩, hM, ?_⟩
    · simp [oe, Expr.PolyForm]
    · intro ρ
      have hs : oe.syms.toFinset = {vsym "y", vsym "y" (-1)} := by decide +kernel
      rw [hs, Finset.sum_insert (by decide +kernel), Finset.sum_singleton]
      have h1 : vsym "y" (-1) ≠ vsym "y" := by decide
      simp only [if_true, if_neg h1, oe, Expr.eval]
      ring
    · have : (["y"] : List String).toFinset = {"y"} := by decide
      rw [this, Finset.sum_singleton, hz.1, hz.2]
      simp [oe, Expr.eval]

/-- Accepted: `y - y(-1)`, whose lag is lost. Not accepted: a number, a lead, a shock and a longer lag. -/
theorem C21_acceptance_examples :
    (∃ zz, getObs MatEx.I ["y"] [] (.sub (.sym (vsym "y")) (.sym (vsym "y" (-1)))) = .ok zz) ∧
      getObs MatEx.I ["y"] [] (.num 1) = .error .attributeError ∧ getObs MatEx.I ["y"] ["y"] (.sym (vsym "y" 1)) = .error .indexError ∧
      getObs MatEx.I ["y"] [] (.sym (vsym "y" 1)) = .error .valueError ∧ getObs MatEx.I ["y"] [] (.sym (ssym "e")) = .error .nameError ∧
      getObs MatEx.I ["y"] [] (.sym (vsym "y" (-2))) = .error .nameError := by
  refine ⟨(C21_accepted_iff _ _ _ _).2 ⟨by simp [Spec.HasName], ?_⟩, rfl, rfl, rfl, rfl, rfl⟩
  intro s hs
  simp only [Expr.syms, List.mem_append, List.mem_singleton] at hs
  exact ⟨"y", by simp, hs⟩

/-- The hypotheses of C21 hold for the example model: its observable `1 - 2 y` evaluated in the state `(r, y) = (3, 5)` is `-9`. -/
example : ∃ mod, Succeeded Ex1.lay Ex1.orc 3 2 (serial 2) mod ∧ Tools.oFunc mod (Sum.elim (fun _ => 3) (fun _ => 5)) 0 = -9 := by
  obtain ⟨mod, hS⟩ := ex1_succeeds 3 2
  refine ⟨mod, hS, ?_⟩
  obtain ⟨_, hm⟩ := genSys_ok hS.perm hS.gen
  let oe : Expr Rat := .sub (.num 1) (.mul (.num 2) (.sym (vsym "y")))
  let name : Fin 2 → String := fun v => if v = 0 then "y" else "r"
  cases hM : getObs MatEx.I ["y", "r"] [] oe with
  | error e =>
    have h : (getObs MatEx.I ["y", "r"] [] oe).toOption.isSome = true := by decide +kernel
    rw [hM] at h; cases h
  | ok zz =>
    obtain ⟨z0, z1⟩ := zz
    have hz : z0 "y" = -2 ∧ z0 "r" = 0 ∧ z1 = 1 := by
      have h1 : (getObs MatEx.I ["y", "r"] [] oe).toOption.map (fun zz => (zz.1 "y", zz.1 "r", zz.2)) = some (-2, 0, 1) := by decide +kernel
      rw [hM] at h1
      simpa [Except.toOption] using h1
    have haff : oe.AffineWith MatEx.I (fun _ => -2) 1 := by
      intro ρ
      have hs : oe.syms.toFinset = {vsym "y"} := by decide +kernel
      rw [hs, Finset.sum_singleton]
      simp only [oe, Expr.eval]; ring
    let X : Fin 2 ⊕ Fin 0 → Rat := Sum.elim (fun v => if v = 0 then 5 else 3) Fin.elim0
    have := C21_observables_partial Ex1.tol (Ex1.inpB (-1)) Ex1.lay mod hm.hx 0 X MatEx.I ["y", "r"] [] name
      (by intro a b; fin_cases a <;> fin_cases b <;> simp [name])
      (by
        intro n
        simp only [List.mem_cons, List.not_mem_nil, or_false, name]
        constructor
        · rintro (rfl | rfl)
          · exact ⟨0, rfl⟩
          · exact ⟨1, rfl⟩
        · rintro ⟨v, rfl⟩
          fin_cases v <;> simp)
      oe z0 z1 hM
      (by
        intro v
        fin_cases v
        · exact hz.1.symm
        · exact hz.2.1.symm)
      hz.2.2.symm
      (by
        intro v hv
        fin_cases v
        · refine ⟨0, Or.inr (Or.inl ?_)⟩
          simp [GenSys.fast0, Ex1.tol, yaml, Input.ofYaml, Ex1.declB]
          norm_num
        · exact absurd rfl hv)
      (by simp [oe, Expr.PolyForm]) (fun _ => -2) 1 haff (by decide +kernel)
      (fun s => if s = vsym "y" then 5 else 3)
      (by intro v; fin_cases v <;> simp [name, X, vsym, TSym.mk'])
    have he : oe.eval MatEx.I (fun s => if s = vsym "y" then 5 else 3) = -9 := by decide +kernel
    rw [he] at this
    exact this

end Pydsge
