import Verif.Props.ModelFile
import Verif.Props.ModelFileEx
import Verif.Props.LeadCut

/-!
# C82 without a condition on the leads

`C82_model_file_solved` asks for leads of at most two periods. With longer ones the paths solve the file with all longer leads cut to two periods
(`Props/LeadCut.lean`).
-/

set_option autoImplicit false
set_option linter.unusedSectionVars false
set_option linter.unusedSimpArgs false

namespace Pydsge
open Matrix Parser Spec GenSys Engine Tools Pipeline

section
variable {K : Type} [Field K]
variable {ord : List (TSym × TSym) → List (TSym × TSym)} {vars shocks : List String} {eqs : List (Eqn K)} {st : PState K}

/-- The equation holds in period `t` if leads end at two periods. -/
def Spec.CutHoldsAt (I : Interp K) (p : Path K) (e : Eqn K) (t : Int) : Prop :=
  e.lhs.eval I (Spec.cutAt p t) = e.rhs.eval I (Spec.cutAt p t)

theorem cutAt_long (p : Path K) (t : Int) (v : String) (d : Int) (h : 2 ≤ d) : Spec.cutAt p t (vsym v d) = p .variable v (t + 2) :=
  congrArg (fun i => p .variable v (t + i)) (min_eq_right h)

theorem cutHolds_iff (I : Interp K) (p : Path K) (e : Eqn K) (t : Int) (h : ∀ s ∈ e.syms, s.kind = .variable → s.date ≤ 2) :
    Spec.CutHoldsAt I p e t ↔ HoldsAt I p e t := by
  unfold Spec.CutHoldsAt HoldsAt
  have key : ∀ s ∈ e.syms, Spec.cutAt p t s = p.at t s := by
    intro s hs
    simp only [Spec.cutAt, Path.at]
    by_cases hk : s.kind = .variable
    · rw [if_pos hk, min_eq_left (h s hs hk)]
    · rw [if_neg hk]
  rw [Expr.eval_congr I (Spec.cutAt p t) (p.at t) e.lhs, Expr.eval_congr I (Spec.cutAt p t) (p.at t) e.rhs]
  · intro s hs; exact key s (by simp [Eqn.syms, hs])
  · intro s hs; exact key s (by simp [Eqn.syms, hs])

theorem cutHolds_subs (I : Interp K) (p : Path K) (d : List (TSym × TSym)) (e : Eqn K) (t : Int)
    (hd : ∀ kv ∈ d, ∀ kv' ∈ d, kv.2 ≠ kv'.1) (h : ∀ kv ∈ d, kv.1 ∈ e.syms → Spec.cutAt p t kv.1 = Spec.cutAt p t kv.2) :
    Spec.CutHoldsAt I p (e.subs d) t ↔ Spec.CutHoldsAt I p e t := by
  unfold Spec.CutHoldsAt Eqn.subs
  rw [Expr.eval_subs I _ d e.lhs hd, Expr.eval_subs I _ d e.rhs hd]
  · intro kv hm hs; exact h kv hm (by simp [Eqn.syms, hs])
  · intro kv hm hs; exact h kv hm (by simp [Eqn.syms, hs])

theorem shockFold_cutHolds (I : Interp K) (ho : IsOrder ord) (lag : String → Int) (shocks : List String) (st : PState K) (p : Path K)
    (hneg : ∀ s t, t < 0 → p .variable (varOf s) t = p .shock s t)
    (h : ∀ e ∈ (shocks.foldl (shockStep ord lag) st).eqs, ∀ t, 0 ≤ t → Spec.CutHoldsAt I p e t) :
    ∀ e ∈ st.eqs, ∀ t, 0 ≤ t → Spec.CutHoldsAt I p e t := by
  induction shocks generalizing st with
  | nil => exact h
  | cons s ss ih =>
    rw [List.foldl_cons] at h
    have h1 := ih _ h
    unfold shockStep at h1
    by_cases hl : (lag s).natAbs > 0
    · rw [if_pos hl] at h1
      have hmem : ∀ kv, kv ∈ ord (shockDict s (lag s).natAbs) ↔ kv ∈ shockDict s (lag s).natAbs := fun kv => (ho _).mem_iff
      have hdef : Eqn.subs (ord (shockDict s (lag s).natAbs)) (⟨.sym (vsym (varOf s)), .sym (ssym s)⟩ : Eqn K)
          = ⟨.sym (vsym (varOf s)), .sym (ssym s)⟩ := by
        refine Eqn.subs_of_not_mem _ _ ?_
        intro kv hk hs
        rw [hmem, shockDict, List.mem_map] at hk
        obtain ⟨i, _, rfl⟩ := hk
        simp only [Eqn.syms, Expr.syms, List.mem_append, List.mem_singleton] at hs
        rcases hs with hs | hs
        · exact vsym_ne_ssym hs.symm
        · have := (ssym_inj.1 hs).2; omega
      have hall : ∀ t, p .variable (varOf s) t = p .shock s t := by
        intro t
        by_cases ht : t < 0
        · exact hneg s t ht
        · have := h1 ⟨.sym (vsym (varOf s)), .sym (ssym s)⟩
            (List.mem_map.2 ⟨_, List.mem_append_right _ (List.mem_singleton.2 rfl), hdef⟩) t (by omega)
          simpa [Spec.CutHoldsAt, Expr.eval, Spec.cutAt, vsym, ssym, TSym.mk'] using this
      intro e he t ht
      refine (cutHolds_subs I p _ e t (shockDict_ord_sep ho s _) ?_).1
        (h1 _ (List.mem_map_of_mem (List.mem_append_left _ he)) t ht)
      intro kv hk _
      rw [hmem, shockDict, List.mem_map] at hk
      obtain ⟨i, _, rfl⟩ := hk
      rw [cutAt_shock, cutAt_var p t _ _ (by omega), hall]
    · rw [if_neg hl] at h1; exact h1

theorem endo_cutHolds (I : Interp K) (ho : IsOrder ord) (vars : List String) (n k : String → Nat) (eqs : List (Eqn K))
    (p : Path K)
    (hdate : ∀ e ∈ (eqs ++ endoEqs vars n k).map (Eqn.subs (ord (endoDict vars n k))), ∀ s ∈ e.syms, s.kind = .variable → s.date ≤ 2)
    (hpast : ∀ v, ∀ j : Nat, p .variable (lagVar v (j + 1)) (-1) = p .variable v (-1 - ((j : Int) + 1)))
    (h : ∀ e ∈ (eqs ++ endoEqs vars n k).map (Eqn.subs (ord (endoDict vars n k))), ∀ t, 0 ≤ t → HoldsAt I p e t) :
    ∀ e ∈ eqs, ∀ t, 0 ≤ t → Spec.CutHoldsAt I p e t := by
  have hsep : ∀ kv ∈ ord (endoDict vars n k), ∀ kv' ∈ ord (endoDict vars n k), kv.2 ≠ kv'.1 := by
    intro kv hk kv' hk'
    exact endoDict_sep _ _ _ _ ((ho _).mem_iff.1 hk) _ ((ho _).mem_iff.1 hk')
  rw [List.map_append, endoEqs_subs ord ho] at h hdate
  have hnew : ∀ e ∈ endoEqs (K := K) vars n k, ∀ t, 0 ≤ t → HoldsAt I p e t := fun e he => h e (List.mem_append_right _ he)
  have hlag : ∀ v ∈ vars, ∀ j : Nat, j + 1 < n v → ∀ t, -1 ≤ t →
      p .variable (lagVar v (j + 1)) t = p .variable v (t - ((j : Int) + 1)) := by
    intro v hv j
    induction j with
    | zero =>
      intro hj t ht
      by_cases h0 : t = -1
      · subst h0; exact hpast v 0
      · have := hnew ⟨.sym (vsym (lagVar v (0 + 1))), .sym (lagRhs v (0 + 1))⟩
          (List.mem_flatMap.2 ⟨v, hv, List.mem_append_left _ (List.mem_map.2 ⟨0, List.mem_range.2 (by omega), rfl⟩)⟩) t (by omega)
        simp only [HoldsAt, Expr.eval, Path.at, vsym, TSym.mk', lagRhs, zero_add, if_true, add_zero] at this
        rw [zero_add, this]
        congr 1
    | succ j ih =>
      intro hj t ht
      by_cases h0 : t = -1
      · subst h0; exact hpast v (j + 1)
      · have := hnew ⟨.sym (vsym (lagVar v (j + 1 + 1))), .sym (lagRhs v (j + 1 + 1))⟩
          (List.mem_flatMap.2 ⟨v, hv, List.mem_append_left _ (List.mem_map.2 ⟨j + 1, List.mem_range.2 (by omega), rfl⟩)⟩) t (by omega)
        simp only [HoldsAt, Expr.eval, Path.at, vsym, TSym.mk', lagRhs, show j + 1 + 1 ≠ 1 by omega, if_false, Nat.add_sub_cancel,
          add_zero] at this
        rw [this, ih (by omega) (t + -1) (by omega)]
        congr 1; push_cast; ring
  have hld : ∀ v ∈ vars, ∀ j : Nat, j + 1 < k v → ∀ t, 0 ≤ t → p .variable (leadVar v (j + 1)) t = p .variable v (t + 1) := by
    intro v hv j hj t ht
    have := hnew ⟨.sym (vsym (leadVar v (j + 1))), .sym (vsym v 1)⟩
      (List.mem_flatMap.2 ⟨v, hv, List.mem_append_right _ (List.mem_map.2 ⟨j, List.mem_range.2 (by omega), rfl⟩)⟩) t ht
    simpa [HoldsAt, Expr.eval, Path.at, vsym, TSym.mk'] using this
  intro e he t ht
  have hm := List.mem_append_left (endoEqs (K := K) vars n k) (List.mem_map_of_mem (f := Eqn.subs (ord (endoDict vars n k))) he)
  refine (cutHolds_subs I p _ e t hsep ?_).1 ((cutHolds_iff I p _ t (hdate _ hm)).2 (h _ hm t ht))
  intro kv hk hs
  rw [(ho _).mem_iff, mem_endoDict] at hk
  obtain ⟨v, hv, ⟨j, hj, rfl⟩ | ⟨j, hj, rfl⟩⟩ := hk
  · rw [cutAt_var p t _ _ (by omega), cutAt_var p t _ _ (by omega), hlag v hv j hj _ (by omega)]
    congr 1; ring
  · rw [cutAt_long p t _ _ (by omega), cutAt_var p t _ _ (by omega), hld v hv j hj _ (by omega)]
    congr 1; ring

theorem parse_cutHolds (I : Interp K) (ho : IsOrder ord) (h : parseEqs ord vars shocks eqs = .ok st) (M : Mats K)
    (hM : getMatrices I true st.vars shocks st.eqs = .ok M)
    (p : Path K) (hneg : ∀ s t, t < 0 → p .variable (varOf s) t = p .shock s t)
    (hpast : ∀ v, ∀ j : Nat, p .variable (lagVar v (j + 1)) (-1) = p .variable v (-1 - ((j : Int) + 1)))
    (hst : ∀ e ∈ st.eqs, ∀ t, 0 ≤ t → HoldsAt I p e t) : ∀ e ∈ eqs, ∀ t, 0 ≤ t → Spec.CutHoldsAt I p e t := by
  have hdate : ∀ e ∈ st.eqs, ∀ s ∈ e.syms, s.kind = .variable → s.date ≤ 2 := by
    unfold getMatrices at hM
    intro e he s hs hk
    dsimp only at hM
    split at hM
    · cases hM
    · rename_i hc
      have := rows_dates st.eqs 0 hc e he s hs hk
      omega
  obtain ⟨_, rfl⟩ := parseEqs_ok h
  rw [endoStage_eqs] at hst hdate
  have h1 := endo_cutHolds I ho (shockStage ord vars shocks eqs).vars (nOf (shockStage ord vars shocks eqs))
    (kOf (shockStage ord vars shocks eqs)) _ p hdate hpast hst
  exact shockFold_cutHolds I ho (lagOf eqs) shocks ⟨vars, eqs⟩ p hneg h1

end

section
variable {K : Type} [Field K] [LinearOrder K] [IsStrictOrderedRing K]
variable {H z p : Type} [DecidableEq H] [Fintype H] [Fintype z] [Fintype p] [DecidableEq z] [DecidableEq p]
variable {E ν ε o : Type} [Fintype E] [Fintype ν] [Fintype ε] [Fintype o] [DecidableEq E] [DecidableEq ν] [DecidableEq ε]
variable {ord : List (TSym × TSym) → List (TSym × TSym)} {I : Interp K} {src : Source K} {C : Compiled K}
  {L : Labels E ν ε o src.shocks C} {cv : ν} {xbar tol : K} [DecidablePred (inall tol (inputOf L cv xbar))]
  {lay : Layout tol (inputOf L cv xbar) H z p}
  {orc : Oracle (Rows E H ε) (z ⊕ ε) p K} {lMax kMax : Nat} {sched : Nat → List Nat} {mod : Model z ε p o K}

/-- `Plain` without the condition on the leads. -/
structure PlainButLeads (I : Interp K) (src : Source K) : Prop where
  eqs : ∀ e ∈ src.eqs, LinearEq I e
  con : LinearEq I src.con
  cur : ∀ s ∈ src.crhs.syms, s.date = 0
  self : vsym src.cvar ∉ src.crhs.syms

/-- **C82**, leads of any length: the path that `t_func` generates satisfies, in every period, every equation of the model file with the leads of
more than two periods replaced by leads of two periods; the constraint as in `C82_model_file_solved`. -/
theorem C82_long_leads (ho : IsOrder ord) (hC : compile ord I src = .ok C) (hcv : (L.vn cv : String) = src.cvar) (hp : PlainButLeads I src)
    (h : Succeeded lay orc lMax kMax sched mod) {l k : Nat} (hl : l ≤ lMax) (hk : k ≤ kMax) (st0 : p ⊕ z → K)
    (eps : ε → K) (X : Nat → p ⊕ z → K) (hX : ExpectedPath mod l k st0 eps X) :
    (∀ e ∈ src.eqs, ∀ t, 0 ≤ t → Spec.CutHoldsAt I (namedPath lay st0 eps X) e t) ∧
    ∀ t : Nat, (¬ BindsAt l k t →
        namedPath lay st0 eps X .variable src.cvar t = src.crhs.eval I ((namedPath lay st0 eps X).at t)) ∧
      (BindsAt l k t → namedPath lay st0 eps X .variable src.cvar t = xbar) := by
  obtain ⟨hrc, hrb⟩ := con_coefs hC hp.cur hp.self L cv hcv xbar
  have hsol : SolvesUnderSpell (declOf L cv xbar) (lagVal lay st0) eps (fun s v => lay.val (X s) (.inl v)) l k := by
    have hy := inputOf_yaml L cv xbar
    clear hC
    revert lay orc
    generalize inputOf L cv xbar = m at *
    subst hy
    intro lay orc h
    exact C01_expected_paths_solve_declared_model h hrc (by rw [show (declOf L cv xbar).rb (declOf L cv xbar).cvar = 0 from hrb]; exact zero_ne_one)
      (Or.inl hrb) hl hk st0 eps X hX
  have hlin : ∀ e ∈ C.st.eqs, LinearEq I e := parse_linear I (compile_ok hC).2.1 hp.eqs
  have hval : ∀ t : Nat, namedPath lay st0 eps X .variable src.cvar t = lay.val (X t) (.inl cv) := by
    intro t
    show byName L.vn (fun v => lay.val (X t) (.inl v)) src.cvar = _
    rw [← hcv, byName_mem]
  refine ⟨?_, fun t => ⟨fun hb => ?_, fun hb => ?_⟩⟩
  · refine parse_cutHolds I ho (compile_ok hC).2.1 _ (compile_ok hC).2.2.2.1 _ (pathFrom_neg _ _ _) (pathFrom_past _ _ _) ?_
    intro e he t ht
    obtain ⟨n, rfl⟩ := Int.eq_ofNat_of_zero_le ht
    exact eqsHold_holdsAt hC hlin L cv xbar _ _ _ n (hsol.eqs n) e he
  · rw [hval]
    have := hsol.slack t hb
    rw [notional_eval hC hp.con L cv hcv] at this
    exact this
  · rw [hval]
    exact hsol.binding t hb

end

/-! ## A file with a lead of three periods -/

namespace FileEx

/-- `y = 3/4*y(-1) - r(3) + e`. -/
def eqLong : Eqn Rat :=
  ⟨.sym (vsym "y"), .add (.sub (.mul (.div (.num 3) (.num 4)) (.sym (vsym "y" (-1)))) (.sym (vsym "r" 3))) (.sym (ssym "e"))⟩

def srcLong : Source Rat := ⟨["y", "r"], ["e"], [eqLong], "r", .sym (vsym "y"), [oe]⟩

theorem linLong : LinearEq I eqLong := by
  refine ⟨by simp [eqLong, Eqn.setEqZero, Expr.PolyForm, Expr.syms], fun s => if s = vsym "y" then 1 else if s = vsym "y" (-1) then -3/4
    else if s = vsym "r" 3 then 1 else -1, fun ρ => ?_⟩
  have hs : eqLong.setEqZero.syms.toFinset = {vsym "y", vsym "y" (-1), vsym "r" 3, ssym "e"} := by decide +kernel
  rw [hs, Finset.sum_insert (by decide +kernel), Finset.sum_insert (by decide +kernel), Finset.sum_insert (by decide +kernel),
    Finset.sum_singleton]
  simp [eqLong, Eqn.setEqZero, Expr.eval, vsym, ssym, TSym.mk']
  ring

end FileEx

/-- A file with a long lead is accepted, and has the properties that `C82_long_leads` asks of a file but not those of `C82_model_file_solved`. What the theorem
says of its equation is `y = 3/4*y(-1) - r(2) + e`. -/
theorem C82_long_leads_met : (compile id FileEx.I FileEx.srcLong).toOption.isSome = true ∧ PlainButLeads FileEx.I FileEx.srcLong ∧
    ¬ Plain FileEx.I FileEx.srcLong ∧ ∀ (p : Path Rat) (t : Int), Spec.CutHoldsAt FileEx.I p FileEx.eqLong t ↔
      p .variable "y" t = 3 / 4 * p .variable "y" (t - 1) - p .variable "r" (t + 2) + p .shock "e" t := by
  refine ⟨by decide +kernel, ⟨?_, linearEq_syms _ _ _ (by decide +kernel), by decide +kernel, by decide +kernel⟩, fun h => ?_, fun p t => ?_⟩
  · intro e he
    simp only [FileEx.srcLong, List.mem_singleton] at he
    subst he
    exact FileEx.linLong
  · have := h.leads FileEx.eqLong (by simp [FileEx.srcLong]) (vsym "r" 3) (by decide +kernel) rfl
    simp [vsym, TSym.mk'] at this
  · simp [Spec.CutHoldsAt, FileEx.eqLong, Expr.eval, Spec.cutAt, vsym, ssym, TSym.mk', sub_eq_add_neg]

end Pydsge
