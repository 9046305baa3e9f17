import Verif.Lemmas.Pipeline
import Verif.Props.Solution
import Verif.Props.Flags

/-!
# C82: from the model file to the simulated path
-/

set_option autoImplicit false
set_option linter.unusedSectionVars false
set_option linter.unusedSimpArgs false

namespace Pydsge
open Matrix Parser Spec GenSys Engine Tools Pipeline

section
variable {K : Type} [Field K]
variable {E ν ε o : Type} [Fintype ν] [Fintype ε] [DecidableEq ν]

theorem compile_ok {ord : List (TSym × TSym) → List (TSym × TSym)} {I : Interp K} {src : Source K} {C : Compiled K}
    (h : compile ord I src = .ok C) :
    src.cvar ∈ src.vars ∧ parseEqs ord src.vars src.shocks src.eqs = .ok C.st ∧
      getConstraint I (unique C.st.vars) src.shocks src.con = .ok C.con ∧
      getMatrices I true C.st.vars src.shocks C.st.eqs = .ok C.mats ∧
      obsRows I C.mats.vars (fvarsOf C.st.eqs) src.obs = .ok C.obs := by
  unfold compile at h
  by_cases hc : src.cvar ∉ src.vars
  · rw [if_pos hc] at h; cases h
  · rw [if_neg hc] at h
    cases h1 : parseEqs ord src.vars src.shocks src.eqs with
    | error e => simp only [h1] at h; cases h
    | ok st =>
      simp only [h1] at h
      cases h2 : getConstraint I (unique st.vars) src.shocks src.con with
      | error e => simp only [h2] at h; cases h
      | ok R =>
        simp only [h2] at h
        cases h3 : getMatrices I true st.vars src.shocks st.eqs with
        | error e => simp only [h3] at h; cases h
        | ok M =>
          simp only [h3] at h
          cases h4 : obsRows I M.vars (fvarsOf st.eqs) src.obs with
          | error e => simp only [h4] at h; cases h
          | ok os =>
            simp only [h4, Except.ok.injEq] at h
            subst h
            exact ⟨not_not.1 hc, rfl, h2, h3, h4⟩

theorem getMatrices_vars {I : Interp K} {con : Bool} {vars shocks : List String} {eqs : List (Eqn K)} {M : Mats K}
    (h : getMatrices I con vars shocks eqs = .ok M) : M.vars = unique vars := by
  unfold getMatrices at h
  simp only at h
  split at h
  · cases h
  · simp only [Except.ok.injEq] at h
    rw [← h]

/-- The declared variables are among those of the matrices. -/
theorem declared_mem {ord : List (TSym × TSym) → List (TSym × TSym)} {I : Interp K} {src : Source K} {C : Compiled K}
    (h : compile ord I src = .ok C) (v : String) (hv : v ∈ src.vars) : v ∈ C.mats.vars := by
  obtain ⟨_, h1, _, h3, _⟩ := compile_ok h
  rw [getMatrices_vars h3, mem_unique, (parseEqs_ok h1).2, endoStage_vars]
  have hv1 : (shockStage ord src.vars src.shocks src.eqs).vars = src.vars ++ (lagged (lagOf src.eqs) src.shocks).map varOf :=
    shockFold_vars ord _ src.shocks ⟨src.vars, src.eqs⟩
  rw [hv1]
  exact List.mem_append_left _ (List.mem_append_left _ hv)

/-- The linear system with the coefficients that the parser has found. -/
def declOf {shocks : List String} {C : Compiled K} (L : Labels E ν ε o shocks C) (cv : ν) (xbar : K) : Declared E ν ε K where
  A := fun i v => C.mats.AA (L.row i) (L.vn v)
  B := fun i v => C.mats.BB (L.row i) (L.vn v)
  C := fun i v => C.mats.CC (L.row i) (L.vn v)
  D := fun i s => -C.mats.PSI (L.row i) (L.sn s)
  cvar := cv
  rb := fun v => (if v = cv then 1 else 0) + C.con.bb (L.vn v)
  rc := fun v => C.con.bbLag (L.vn v)
  rd := fun s => C.con.bbPSI (L.sn s)
  xbar := xbar

theorem inputOf_yaml {shocks : List String} {C : Compiled K} (L : Labels E ν ε o shocks C) (cv : ν) (xbar : K) :
    inputOf L cv xbar =
      yaml (declOf L cv xbar) (fun i v => (C.obs[L.on i]).1 (L.vn v)) (fun i => (C.obs[L.on i]).2) := by
  have : (fun v : ν => -C.con.bb (L.vn v)) =
      fun v => (if v = cv then (1 : K) else 0) - ((if v = cv then 1 else 0) + C.con.bb (L.vn v)) := by
    funext v; ring
  unfold inputOf yaml Input.ofYaml
  rw [this]
  rfl

/-- A function of numbered names, by name. -/
def byName {α : Type} {names : List String} (lab : α ≃ {v // v ∈ names}) (f : α → K) (n : String) : K :=
  if h : n ∈ names then f (lab.symm ⟨n, h⟩) else 0

theorem byName_mem {α : Type} {names : List String} (lab : α ≃ {v // v ∈ names}) (f : α → K) (v : α) : byName lab f (lab v) = f v := by
  unfold byName; rw [dif_pos (lab v).2, Subtype.coe_eta, Equiv.symm_apply_apply]

theorem sum_names {α : Type} [Fintype α] {names : List String} (lab : α ≃ {v // v ∈ names}) (f : String → K) :
    names.toFinset.sum f = ∑ v : α, f (lab v) := by
  rw [Finset.sum_subtype (p := fun v => v ∈ names) names.toFinset (fun x => by simp) f]
  exact (Equiv.sum_comp lab (fun v => f v)).symm

/-- Values of the symbols in period `t ≥ 0`. -/
theorem pathFrom_at (before : String → K) (x : Nat → String → K) (eps : String → K) (t : Nat) (n : String) :
    (pathFrom before x eps).at t (vsym n) = x t n ∧ (pathFrom before x eps).at t (vsym n 1) = x (t + 1) n ∧
      (pathFrom before x eps).at t (vsym n (-1)) = (match t with | 0 => before n | s + 1 => x s n) ∧
      (pathFrom before x eps).at t (ssym n) = if t = 0 then eps n else 0 := by
  refine ⟨?_, ?_, ?_, ?_⟩
  · simp only [Path.at, vsym, TSym.mk', add_zero]; rfl
  · simp only [Path.at, vsym, TSym.mk']
    rw [show ((t : Int) + 1) = Int.ofNat (t + 1) from rfl]; rfl
  · simp only [Path.at, vsym, TSym.mk']
    cases t with
    | zero => rfl
    | succ s => rw [show (((s + 1 : Nat) : Int) + -1) = Int.ofNat s by simp]; rfl
  · simp only [Path.at, ssym, TSym.mk', add_zero]; rfl

/-- If the system with the parser's coefficients holds in period `t`, so do the parsed equations. -/
theorem eqsHold_holdsAt [Infinite K] {ord : List (TSym × TSym) → List (TSym × TSym)} {I : Interp K} {src : Source K} {C : Compiled K}
    (h : compile ord I src = .ok C) (hlin : ∀ e ∈ C.st.eqs, LinearEq I e) (L : Labels E ν ε o src.shocks C) (cv : ν)
    (xbar : K) (xlag : ν → K) (eps : ε → K) (x : Nat → ν → K) (t : Nat)
    (hx : EqsHold (declOf L cv xbar) xlag eps x t) :
    ∀ e ∈ C.st.eqs, HoldsAt I (pathFrom (byName L.vn xlag) (fun s => byName L.vn (x s)) (byName L.sn eps)) e t := by
  classical
  obtain ⟨_, _, _, hM, _⟩ := compile_ok h
  intro e he
  obtain ⟨i, hi, hie⟩ := List.getElem_of_mem he
  have hie' : C.st.eqs[i]? = some e := by rw [List.getElem?_eq_getElem hi, hie]
  obtain ⟨hp, c, ha⟩ := hlin e he
  have key := C39_matrices_reproduce I true C.st.vars src.shocks C.st.eqs C.mats hM i e hie' hp c ha
    ((pathFrom (byName L.vn xlag) (fun s => byName L.vn (x s)) (byName L.sn eps)).at t)
  unfold HoldsAt
  rw [← sub_eq_zero, key]
  by_cases hrow : i < C.mats.vars.length - 1
  · have hr := congrFun hx (L.row.symm ⟨i, hrow⟩)
    simp only [Pi.add_apply, Matrix.mulVec, dotProduct, declOf, Pi.zero_apply, neg_mul, Finset.sum_neg_distrib, Equiv.apply_symm_apply] at hr
    rw [sum_names L.vn, sum_names L.vn, sum_names L.vn, sum_names L.sn]
    rw [← hr, sub_eq_add_neg]
    congr 1
    · congr 1
      · congr 1
        · refine Finset.sum_congr rfl fun v _ => ?_
          rw [(pathFrom_at _ _ _ t _).2.1, byName_mem]
        · refine Finset.sum_congr rfl fun v _ => ?_
          rw [(pathFrom_at _ _ _ t _).1, byName_mem]
      · refine Finset.sum_congr rfl fun v _ => ?_
        rw [(pathFrom_at _ _ _ t _).2.2.1]
        cases t with
        | zero => simp only [prev, byName_mem]
        | succ s => simp only [prev, byName_mem]
    · congr 1
      refine Finset.sum_congr rfl fun v _ => ?_
      rw [(pathFrom_at _ _ _ t _).2.2.2]
      cases t with
      | zero => simp only [shockAt, byName_mem, if_true]
      | succ s => simp [shockAt]
  · have hnil : e.setEqZero.syms = [] := getMatrices_rows I _ _ _ C.mats hM i e hie' (by omega)
    obtain ⟨_, _, _, hm⟩ := getMatrices_ok I true _ _ _ C.mats hM i e hie'
    have hz : ∀ s, coef I e.setEqZero s = 0 := fun s => by rw [coef, if_neg (by simp [hnil])]
    simp [(hm _).1, (hm _).2.1, (hm _).2.2.1, (hm _).2.2.2, hz]

/-- The right hand side of the constraint in period `t`, for a constraint without lags whose right hand side does not contain the
constrained variable itself. -/
theorem notional_eval [Infinite K] {ord : List (TSym × TSym) → List (TSym × TSym)} {I : Interp K} {src : Source K} {C : Compiled K}
    (h : compile ord I src = .ok C) (hlin : LinearEq I src.con) (L : Labels E ν ε o src.shocks C) (cv : ν)
    (hcv : (L.vn cv : String) = src.cvar) (xbar : K) (xlag : ν → K) (eps : ε → K) (x : Nat → ν → K) (t : Nat) :
    notional (declOf L cv xbar) xlag eps x t =
      src.crhs.eval I ((pathFrom (byName L.vn xlag) (fun s => byName L.vn (x s)) (byName L.sn eps)).at t) := by
  classical
  obtain ⟨_, _, hR, hM, _⟩ := compile_ok h
  obtain ⟨hp, c, ha⟩ := hlin
  have key := C39_constraint_row I (unique C.st.vars) src.shocks src.con C.con hR hp c ha
    ((pathFrom (byName L.vn xlag) (fun s => byName L.vn (x s)) (byName L.sn eps)).at t)
  rw [← getMatrices_vars hM, sum_names L.vn, sum_names L.vn, sum_names L.sn] at key
  have hlhs : src.con.lhs.eval I ((pathFrom (byName L.vn xlag) (fun s => byName L.vn (x s)) (byName L.sn eps)).at t) = x t cv := by
    show (pathFrom (byName L.vn xlag) (fun s => byName L.vn (x s)) (byName L.sn eps)).at t (vsym src.cvar) = _
    rw [(pathFrom_at _ _ _ t _).1, ← hcv, byName_mem]
  rw [hlhs] at key
  have hrhs : src.crhs.eval I ((pathFrom (byName L.vn xlag) (fun s => byName L.vn (x s)) (byName L.sn eps)).at t) =
      src.con.rhs.eval I ((pathFrom (byName L.vn xlag) (fun s => byName L.vn (x s)) (byName L.sn eps)).at t) := rfl
  rw [hrhs, eq_add_of_sub_eq key]
  unfold notional
  simp only [dotProduct, declOf, add_mul, Finset.sum_add_distrib, ite_mul, one_mul, zero_mul, Finset.sum_ite_eq', Finset.mem_univ, if_true]
  rw [add_assoc (x t cv), add_assoc (x t cv), add_comm (x t cv)]
  congr 1
  congr 1
  · congr 1
    · refine Finset.sum_congr rfl fun v _ => ?_
      rw [(pathFrom_at _ _ _ t _).1, byName_mem]
    · refine Finset.sum_congr rfl fun v _ => ?_
      rw [(pathFrom_at _ _ _ t _).2.2.1]
      cases t with
      | zero => simp only [prev, byName_mem]
      | succ s => simp only [prev, byName_mem]
  · refine Finset.sum_congr rfl fun v _ => ?_
    rw [(pathFrom_at _ _ _ t _).2.2.2]
    cases t with
    | zero => simp only [shockAt, byName_mem, if_true]
    | succ s => simp [shockAt]

/-- A right hand side without lags and without the constrained variable gives no lag coefficients and no coefficient on it. -/
theorem con_coefs {ord : List (TSym × TSym) → List (TSym × TSym)} {I : Interp K} {src : Source K} {C : Compiled K}
    (h : compile ord I src = .ok C) (hcur : ∀ s ∈ src.crhs.syms, s.date = 0) (hself : vsym src.cvar ∉ src.crhs.syms)
    (L : Labels E ν ε o src.shocks C) (cv : ν) (hcv : (L.vn cv : String) = src.cvar) (xbar : K) :
    (declOf L cv xbar).rc = 0 ∧ (declOf L cv xbar).rb cv = 0 := by
  obtain ⟨_, _, hR, _, _⟩ := compile_ok h
  have hcon : ∀ v, C.con.bbLag v = -coef I src.con.setEqZero (vsym v (-1)) ∧ C.con.bb v = -coef I src.con.setEqZero (vsym v 0) := by
    unfold getConstraint at hR
    split at hR
    · cases hR
    · split at hR
      · cases hR
      · simp only [Except.ok.injEq] at hR
        intro v; rw [← hR]; exact ⟨rfl, rfl⟩
  constructor
  · funext v
    show C.con.bbLag (L.vn v) = 0
    rw [(hcon _).1, coef, if_neg, neg_zero]
    intro hm
    simp only [Source.con, Eqn.setEqZero, Expr.syms, List.mem_append, List.mem_singleton] at hm
    rcases hm with hm | hm
    · have := (vsym_inj.1 hm).2; omega
    · have := hcur _ hm; simp [vsym, TSym.mk'] at this
  · show (if cv = cv then (1 : K) else 0) + C.con.bb (L.vn cv) = 0
    rw [if_pos rfl, (hcon _).2, hcv, coef, if_pos (by simp [Source.con, Eqn.setEqZero, Expr.syms])]
    show 1 + -(((Expr.sub (.sym (vsym src.cvar)) src.crhs).diff (vsym src.cvar 0)).eval I (fun _ => 0)) = 0
    simp only [Expr.diff, if_true, Expr.eval]
    rw [Expr.diff_not_mem I _ src.crhs hself]
    ring

end

section
variable {K : Type} [Field K] [LinearOrder K] [IsStrictOrderedRing K]
variable {H z p : Type} [DecidableEq H] [Fintype H] [Fintype z] [Fintype p] [DecidableEq z] [DecidableEq p]
variable {E ν ε o : Type} [Fintype E] [Fintype ν] [Fintype ε] [Fintype o] [DecidableEq E] [DecidableEq ν] [DecidableEq ε]
variable {ord : List (TSym × TSym) → List (TSym × TSym)} {I : Interp K} {src : Source K} {C : Compiled K}
  {L : Labels E ν ε o src.shocks C} {cv : ν} {xbar tol : K} [DecidablePred (inall tol (inputOf L cv xbar))]
  {lay : Layout tol (inputOf L cv xbar) H z p}
  {orc : Oracle (Rows E H ε) (z ⊕ ε) p K} {lMax kMax : Nat} {sched : Nat → List Nat} {mod : Model z ε p o K}

/-- What C82 asks of the text of the model: every equation is linear in variables and shocks, no lead is longer than two periods, the
right hand side of the constraint is linear, in current values, and without the constrained variable. -/
structure Plain (I : Interp K) (src : Source K) : Prop where
  eqs : ∀ e ∈ src.eqs, LinearEq I e
  leads : LeadsAtMost 2 src.eqs
  con : LinearEq I src.con
  cur : ∀ s ∈ src.crhs.syms, s.date = 0
  self : vsym src.cvar ∉ src.crhs.syms

/-- The path by name that a sequence of state vectors stands for. -/
def namedPath (lay : Layout tol (inputOf L cv xbar) H z p) (st0 : p ⊕ z → K) (eps : ε → K)
    (X : Nat → p ⊕ z → K) : Path K :=
  pathFrom (byName L.vn (lagVal lay st0)) (fun s => byName L.vn (fun v => lay.val (X s) (.inl v))) (byName L.sn eps)

/-- **C82**: the path that `t_func` generates satisfies, in every period, every equation as written in the model file (with the values
of the past that the initial state carries); the constraint holds as written in slack periods, and the constrained variable is at `x_bar`
in binding periods. -/
theorem C82_model_file_solved (ho : IsOrder ord) (hC : compile ord I src = .ok C) (hcv : (L.vn cv : String) = src.cvar) (hp : Plain I src)
    (h : Succeeded lay orc lMax kMax sched mod) {l k : Nat} (hl : l ≤ lMax) (hk : k ≤ kMax) (st0 : p ⊕ z → K)
    (eps : ε → K) (X : Nat → p ⊕ z → K) (hX : ExpectedPath mod l k st0 eps X) :
    (∀ e ∈ src.eqs, ∀ t, 0 ≤ t → HoldsAt I (namedPath lay st0 eps X) e t) ∧
    ∀ t : Nat, (¬ BindsAt l k t →
        namedPath lay st0 eps X .variable src.cvar t = src.crhs.eval I ((namedPath lay st0 eps X).at t)) ∧
      (BindsAt l k t → namedPath lay st0 eps X .variable src.cvar t = xbar) := by
  obtain ⟨hrc, hrb⟩ := con_coefs hC hp.cur hp.self L cv hcv xbar
  have hsol : SolvesUnderSpell (declOf L cv xbar) (lagVal lay st0) eps (fun s v => lay.val (X s) (.inl v)) l k := by
    have hy := inputOf_yaml L cv xbar
    clear hC
    revert lay orc
    generalize inputOf L cv xbar = m at *
    subst hy
    intro lay orc h
    exact C01_expected_paths_solve_declared_model h hrc (by rw [show (declOf L cv xbar).rb (declOf L cv xbar).cvar = 0 from hrb]; exact zero_ne_one)
      (Or.inl hrb) hl hk st0 eps X hX
  have hlin : ∀ e ∈ C.st.eqs, LinearEq I e := parse_linear I (compile_ok hC).2.1 hp.eqs
  have hval : ∀ t : Nat, namedPath lay st0 eps X .variable src.cvar t = lay.val (X t) (.inl cv) := by
    intro t
    show byName L.vn (fun v => lay.val (X t) (.inl v)) src.cvar = _
    rw [← hcv, byName_mem]
  refine ⟨?_, fun t => ⟨fun hb => ?_, fun hb => ?_⟩⟩
  · refine parse_holdsAt I ho (compile_ok hC).2.1 hp.leads _ (pathFrom_neg _ _ _) (pathFrom_past _ _ _) ?_
    intro e he t ht
    obtain ⟨n, rfl⟩ := Int.eq_ofNat_of_zero_le ht
    exact eqsHold_holdsAt hC hlin L cv xbar _ _ _ n (hsol.eqs n) e he
  · rw [hval]
    have := hsol.slack t hb
    rw [notional_eval hC hp.con L cv hcv] at this
    exact this
  · rw [hval]
    exact hsol.binding t hb

/-- **C82**, flag 0: the constrained variable in the new state is the maximum of `x_bar` and the right hand side of the constraint as
written, at the values of the new state and the shocks. -/
theorem C82_flag_zero_is_max (hC : compile ord I src = .ok C) (hcv : (L.vn cv : String) = src.cvar) (hp : Plain I src)
    (h : Succeeded lay orc lMax kMax sched mod) (hk1 : 1 ≤ kMax) (st : p ⊕ z → K) (eps : ε → K) (r : Step z p K)
    (hr : tFunc mod st eps .none false = .ok r) (hflag : r.flag = 0) :
    namedPath lay st eps (fun _ => r.state) .variable src.cvar 0 =
      max xbar (src.crhs.eval I ((namedPath lay st eps (fun _ => r.state)).at 0)) := by
  obtain ⟨hrc, hrb⟩ := con_coefs hC hp.cur hp.self L cv hcv xbar
  have hmax : lay.val r.state (.inl cv) = max xbar ((declOf L cv xbar).rb ⬝ᵥ (fun v => lay.val r.state (.inl v)) +
      (declOf L cv xbar).rd ⬝ᵥ eps) := by
    have hy := inputOf_yaml L cv xbar
    clear hC
    revert lay orc
    generalize inputOf L cv xbar = m at *
    subst hy
    intro lay orc h
    exact C03_flag_zero_is_max h hk1 hrc hrb st eps r hr hflag
  have hn := notional_eval hC hp.con L cv hcv xbar (lagVal lay st) eps (fun _ v => lay.val r.state (.inl v)) 0
  have hval : namedPath lay st eps (fun _ => r.state) .variable src.cvar 0 = lay.val r.state (.inl cv) := by
    show byName L.vn (fun v => lay.val r.state (.inl v)) src.cvar = _
    rw [← hcv, byName_mem]
  rw [hval, hmax]
  congr 1
  refine Eq.trans ?_ hn
  unfold notional
  rw [hrc]
  simp [shockAt]

theorem obsRows_get (I : Interp K) (vars fvars : List String) (os : List (Expr K)) (rs : List ((String → K) × K))
    (h : obsRows I vars fvars os = .ok rs) (i : Nat) (hi : i < rs.length) :
    ∃ hi' : i < os.length, getObs I vars fvars os[i] = .ok rs[i] := by
  induction os generalizing rs i with
  | nil =>
    simp only [obsRows, Except.ok.injEq] at h
    subst h
    simp at hi
  | cons o os ih =>
    simp only [obsRows] at h
    cases h1 : getObs I vars fvars o with
    | error e => simp only [h1] at h; cases h
    | ok r =>
      simp only [h1] at h
      cases h2 : obsRows I vars fvars os with
      | error e => simp only [h2] at h; cases h
      | ok rs' =>
        simp only [h2, Except.ok.injEq] at h
        subst h
        cases i with
        | zero => exact ⟨by simp, by simpa using h1⟩
        | succ i =>
          obtain ⟨hi', hg⟩ := ih rs' h2 i (by simpa using hi)
          exact ⟨by simpa using hi', by simpa using hg⟩

/-- Every measurement equation has its row. -/
theorem obsRows_length (I : Interp K) (vars fvars : List String) (os : List (Expr K)) (rs : List ((String → K) × K))
    (h : obsRows I vars fvars os = .ok rs) : rs.length = os.length := by
  induction os generalizing rs with
  | nil =>
    simp only [obsRows, Except.ok.injEq] at h
    subst h; rfl
  | cons o os ih =>
    simp only [obsRows] at h
    cases h1 : getObs I vars fvars o with
    | error e => simp only [h1] at h; cases h
    | ok r =>
      simp only [h1] at h
      cases h2 : obsRows I vars fvars os with
      | error e => simp only [h2] at h; cases h
      | ok rs' =>
        simp only [h2, Except.ok.injEq] at h
        subst h
        simp [ih rs' h2]

/-- **C82**, observables: `obs` of the state in any period is, observable by observable, the measurement equation as written (affine, in
current values; lags: see C21), at the values of that period. -/
theorem C82_observables (hC : compile ord I src = .ok C) (h : Succeeded lay orc lMax kMax sched mod) (st0 : p ⊕ z → K)
    (eps : ε → K) (X : Nat → p ⊕ z → K) (i : Nat) (hi : i < src.obs.length) (hpoly : (src.obs[i]).PolyForm)
    (haff : ∃ c a, (src.obs[i]).AffineWith I c a) (hcur : ∀ s ∈ (src.obs[i]).syms, s.date = 0) (t : Nat) :
    ∃ j : o, (L.on j : Nat) = i ∧ oFunc mod (X t) j = (src.obs[i]).eval I ((namedPath lay st0 eps X).at t) := by
  classical
  obtain ⟨_, _, _, _, hO⟩ := compile_ok hC
  have hi' : i < C.obs.length := by rw [obsRows_length I _ _ _ _ hO]; exact hi
  refine ⟨L.on.symm ⟨i, hi'⟩, by simp, ?_⟩
  obtain ⟨_, hg⟩ := obsRows_get I _ _ _ _ hO i hi'
  obtain ⟨c, a, ha⟩ := haff
  rw [C81_observables h (X t) (L.on.symm ⟨i, hi'⟩), getObs_value I _ _ _ (C.obs[i]).1 (C.obs[i]).2 hg hpoly c a ha hcur, sum_names L.vn]
  have hget : C.obs[L.on (L.on.symm ⟨i, hi'⟩)] = C.obs[i] := by simp
  show (∑ v, (C.obs[L.on (L.on.symm ⟨i, hi'⟩)]).1 (L.vn v) * _) + (C.obs[L.on (L.on.symm ⟨i, hi'⟩)]).2 = _
  rw [hget]
  congr 1
  refine Finset.sum_congr rfl fun v _ => ?_
  congr 1
  exact (((pathFrom_at _ _ _ t _).1).trans (byName_mem L.vn _ v)).symm

end
end Pydsge
