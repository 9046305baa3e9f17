import Verif.Props.Parser

/-!
# C37: what long leads become

parser.py:863-870 makes every lead variable `v(+1)`, so a lead of more than two periods is read as the lead of two periods, in all models.
-/

set_option autoImplicit false
set_option linter.unusedSectionVars false
set_option linter.unusedSimpArgs false

namespace Pydsge
open Parser

/-- The value of a symbol in period `t` if leads of variables end at two periods. -/
def Spec.cutAt {K : Type} (p : Path K) (t : Int) : TSym → K :=
  fun s => p s.kind s.name (t + if s.kind = .variable then min s.date 2 else s.date)

def Spec.HoldsCut {K : Type} [Field K] (I : Interp K) (p : Path K) (e : Eqn K) : Prop :=
  ∀ t, e.lhs.eval I (Spec.cutAt p t) = e.rhs.eval I (Spec.cutAt p t)

/-- The path solves the equations in which all longer leads are replaced by leads of two periods. -/
def Spec.SolvesCut {K : Type} [Field K] (I : Interp K) (eqs : List (Eqn K)) (p : Path K) : Prop := ∀ e ∈ eqs, Spec.HoldsCut I p e

variable {K : Type} [Field K]

theorem cutAt_shock (p : Path K) (t : Int) (s : String) (d : Int) : Spec.cutAt p t (ssym s d) = p .shock s (t + d) := rfl

theorem cutAt_var (p : Path K) (t : Int) (v : String) (d : Int) (h : d ≤ 2) : Spec.cutAt p t (vsym v d) = p .variable v (t + d) :=
  congrArg (fun i => p .variable v (t + i)) (min_eq_left h)

/-- Nothing is cut if no lead is longer than two periods. -/
theorem cut_iff_of_dates (I : Interp K) (p : Path K) (e : Eqn K) (h : ∀ s ∈ e.syms, s.kind = .variable → s.date ≤ 2) :
    Spec.HoldsCut I p e ↔ Holds I p e := by
  unfold Spec.HoldsCut Holds
  refine forall_congr' fun t => ?_
  have key : ∀ s ∈ e.syms, Spec.cutAt p t s = p.at t s := by
    intro s hs
    simp only [Spec.cutAt, Path.at]
    by_cases hk : s.kind = .variable
    · rw [if_pos hk, min_eq_left (h s hs hk)]
    · rw [if_neg hk]
  rw [Expr.eval_congr I (Spec.cutAt p t) (p.at t) e.lhs, Expr.eval_congr I (Spec.cutAt p t) (p.at t) e.rhs]
  · intro s hs; exact key s (by simp [Eqn.syms, hs])
  · intro s hs; exact key s (by simp [Eqn.syms, hs])

theorem cut_congr (I : Interp K) (p p' : Path K) (e : Eqn K)
    (h : ∀ s ∈ e.syms, ∀ t, p s.kind s.name t = p' s.kind s.name t) : Spec.HoldsCut I p e ↔ Spec.HoldsCut I p' e := by
  unfold Spec.HoldsCut
  refine forall_congr' fun t => ?_
  rw [Expr.eval_congr I (Spec.cutAt p t) (Spec.cutAt p' t) e.lhs, Expr.eval_congr I (Spec.cutAt p t) (Spec.cutAt p' t) e.rhs]
  · intro s hs; exact h s (by simp [Eqn.syms, hs]) _
  · intro s hs; exact h s (by simp [Eqn.syms, hs]) _

theorem cut_subs (I : Interp K) (p : Path K) (d : List (TSym × TSym)) (e : Eqn K)
    (hd : ∀ kv ∈ d, ∀ kv' ∈ d, kv.2 ≠ kv'.1) (h : ∀ kv ∈ d, kv.1 ∈ e.syms → ∀ t, Spec.cutAt p t kv.1 = Spec.cutAt p t kv.2) :
    Spec.HoldsCut I p (e.subs d) ↔ Spec.HoldsCut I p e := by
  unfold Spec.HoldsCut Eqn.subs
  refine forall_congr' fun t => ?_
  rw [Expr.eval_subs I _ d e.lhs hd, Expr.eval_subs I _ d e.rhs hd]
  · intro kv hm hs; exact h kv hm (by simp [Eqn.syms, hs]) t
  · intro kv hm hs; exact h kv hm (by simp [Eqn.syms, hs]) t

theorem cut_append (I : Interp K) (a b : List (Eqn K)) (p : Path K) :
    Spec.SolvesCut I (a ++ b) p ↔ Spec.SolvesCut I a p ∧ Spec.SolvesCut I b p := by
  simp only [Spec.SolvesCut, List.mem_append, or_imp, forall_and]

theorem shockStep_cut (I : Interp K) (ord : List (TSym × TSym) → List (TSym × TSym)) (ho : IsOrder ord)
    (lag : String → Int) (st : PState K) (s : String) (p : Path K) :
    Spec.SolvesCut I (shockStep ord lag st s).eqs p ↔
      Spec.SolvesCut I st.eqs p ∧ (0 < (lag s).natAbs → ∀ t, p .variable (varOf s) t = p .shock s t) := by
  unfold shockStep
  by_cases hl : (lag s).natAbs > 0
  · rw [if_pos hl]
    simp only [List.map_append, List.map_cons, List.map_nil, cut_append]
    have hmem : ∀ kv, kv ∈ ord (shockDict s (lag s).natAbs) ↔ kv ∈ shockDict s (lag s).natAbs := fun kv => (ho _).mem_iff
    have hsep : ∀ kv ∈ ord (shockDict s (lag s).natAbs), ∀ kv' ∈ ord (shockDict s (lag s).natAbs), kv.2 ≠ kv'.1 := by
      intro kv hk kv' hk'
      exact shockDict_sep _ _ _ ((hmem _).1 hk) _ ((hmem _).1 hk')
    have hdef : Eqn.subs (ord (shockDict s (lag s).natAbs)) (⟨.sym (vsym (varOf s)), .sym (ssym s)⟩ : Eqn K)
        = ⟨.sym (vsym (varOf s)), .sym (ssym s)⟩ := by
      refine Eqn.subs_of_not_mem _ _ ?_
      intro kv hk hs
      rw [hmem, shockDict, List.mem_map] at hk
      obtain ⟨i, _, rfl⟩ := hk
      simp only [Eqn.syms, Expr.syms, List.mem_append, List.mem_singleton] at hs
      rcases hs with hs | hs
      · exact vsym_ne_ssym hs.symm
      · have := (ssym_inj.1 hs).2; omega
    rw [hdef]
    have hd2 : Spec.SolvesCut I [(⟨.sym (vsym (varOf s)), .sym (ssym s)⟩ : Eqn K)] p ↔
        ∀ t, p .variable (varOf s) t = p .shock s t := by
      simp [Spec.SolvesCut, Spec.HoldsCut, Expr.eval, Spec.cutAt, vsym, ssym, TSym.mk']
    rw [hd2]
    constructor
    · rintro ⟨h1, h2⟩
      refine ⟨fun e he => ?_, fun _ => h2⟩
      refine (cut_subs I p _ e hsep ?_).1 (h1 _ (List.mem_map_of_mem he))
      intro kv hk _ t
      rw [hmem, shockDict, List.mem_map] at hk
      obtain ⟨i, _, rfl⟩ := hk
      rw [cutAt_shock, cutAt_var p t _ _ (by omega), h2]
    · rintro ⟨h1, h2⟩
      refine ⟨?_, h2 hl⟩
      intro e he
      obtain ⟨e0, he0, rfl⟩ := List.mem_map.1 he
      refine (cut_subs I p _ e0 hsep ?_).2 (h1 _ he0)
      intro kv hk _ t
      rw [hmem, shockDict, List.mem_map] at hk
      obtain ⟨i, _, rfl⟩ := hk
      rw [cutAt_shock, cutAt_var p t _ _ (by omega), h2 hl]
  · rw [if_neg hl]
    exact ⟨fun h => ⟨h, fun h' => absurd h' hl⟩, fun h => h.1⟩

theorem shockFold_cut (I : Interp K) (ord : List (TSym × TSym) → List (TSym × TSym)) (ho : IsOrder ord)
    (lag : String → Int) (shocks : List String) (st : PState K) (p : Path K) :
    Spec.SolvesCut I (shocks.foldl (shockStep ord lag) st).eqs p ↔
      Spec.SolvesCut I st.eqs p ∧ ∀ s ∈ lagged lag shocks, ∀ t, p .variable (varOf s) t = p .shock s t := by
  induction shocks generalizing st with
  | nil => simp [lagged]
  | cons s ss ih =>
    simp only [List.foldl_cons, ih, shockStep_cut I ord ho, lagged, List.mem_filter, List.mem_cons, decide_eq_true_eq]
    constructor
    · rintro ⟨⟨h1, h2⟩, h3⟩
      refine ⟨h1, ?_⟩
      rintro s' ⟨rfl | hs, hl⟩
      · exact h2 hl
      · exact h3 s' ⟨hs, hl⟩
    · rintro ⟨h1, h2⟩
      exact ⟨⟨h1, fun hl => h2 s ⟨Or.inl rfl, hl⟩⟩, fun s' hs => h2 s' ⟨Or.inr hs.1, hs.2⟩⟩

/-- Matrices exist only if no symbol has a lead of more than one period. -/
theorem rows_dates {rows : Nat} {vars shocks : List String} (eqs : List (Eqn K)) (i : Nat) (h : checkRows rows vars shocks i eqs = .ok ()) :
    ∀ e ∈ eqs, ∀ s ∈ e.syms, s.kind = .variable → s.date ≤ 1 := by
  induction eqs generalizing i with
  | nil => intro e he; cases he
  | cons e0 es ih =>
    unfold checkRows at h
    cases hr : rowCheck rows vars shocks i e0 with
    | error er => rw [hr] at h; cases h
    | ok u =>
      rw [hr] at h
      intro e he
      rcases List.mem_cons.1 he with rfl | he
      · intro s hs hk
        unfold rowCheck at hr
        by_contra hd
        rw [if_pos] at hr
        · cases hr
        · refine List.any_eq_true.2 ⟨s, hs, decide_eq_true (.inl ⟨hk, by omega, fun hm => ?_⟩)⟩
          obtain ⟨n, _, rfl⟩ := List.mem_map.1 hm
          exact hd (le_refl 1)
      · exact ih (i + 1) h e he

section
variable {ord : List (TSym × TSym) → List (TSym × TSym)} {vars shocks : List String} {eqs : List (Eqn K)} {st : PState K}

/-- What the parsed system says, without a condition on the leads. -/
theorem cut_solves (I : Interp K) (ho : IsOrder ord) (h : parseEqs ord vars shocks eqs = .ok st) (M : Mats K)
    (hM : getMatrices I true st.vars shocks st.eqs = .ok M) (p : Path K) :
    Solves I st.eqs p ↔ Spec.SolvesCut I eqs p ∧
      (∀ s ∈ lagged (lagOf eqs) shocks, ∀ t, p .variable (varOf s) t = p .shock s t) ∧
      LagMeaning (shockStage ord vars shocks eqs).vars (nOf (shockStage ord vars shocks eqs)) p ∧
      LeadMeaning (shockStage ord vars shocks eqs).vars (kOf (shockStage ord vars shocks eqs)) p := by
  have hdate : ∀ e ∈ st.eqs, ∀ s ∈ e.syms, s.kind = .variable → s.date ≤ 2 := by
    unfold getMatrices at hM
    intro e he s hs hk
    dsimp only at hM
    split at hM
    · cases hM
    · rename_i hc
      have := rows_dates st.eqs 0 hc e he s hs hk
      omega
  obtain ⟨_, rfl⟩ := parseEqs_ok h
  set s1 := shockStage ord vars shocks eqs with hs1
  rw [endoStage_eqs] at hdate ⊢
  have hsh : Spec.SolvesCut I s1.eqs p ↔ Spec.SolvesCut I eqs p ∧
      ∀ s ∈ lagged (lagOf eqs) shocks, ∀ t, p .variable (varOf s) t = p .shock s t :=
    shockFold_cut I ord ho _ shocks ⟨vars, eqs⟩ p
  rw [← and_assoc, ← hsh]
  generalize nOf s1 = n at hdate ⊢
  generalize kOf s1 = k at hdate ⊢
  rw [List.map_append] at hdate ⊢
  rw [solves_append, endoEqs_subs ord ho]
  have hnew : Solves I (endoEqs (K := K) s1.vars n k) p ↔ LagMeaning s1.vars n p ∧ LeadMeaning s1.vars k p := by
    unfold endoEqs LagMeaning LeadMeaning
    rw [solves_flatMap]
    simp only [solves_append, lagEqs_solves, leadEqs_solves]
    exact ⟨fun h => ⟨fun v hv => (h v hv).1, fun v hv => (h v hv).2⟩, fun h v hv => ⟨h.1 v hv, h.2 v hv⟩⟩
  rw [hnew]
  refine and_congr_left fun ⟨hlag, hld⟩ => ?_
  have hsep : ∀ kv ∈ ord (endoDict s1.vars n k), ∀ kv' ∈ ord (endoDict s1.vars n k), kv.2 ≠ kv'.1 := by
    intro kv hk kv' hk'
    exact endoDict_sep _ _ _ _ ((ho _).mem_iff.1 hk) _ ((ho _).mem_iff.1 hk')
  have hall : ∀ e ∈ s1.eqs, Holds I p (e.subs (ord (endoDict s1.vars n k))) ↔ Spec.HoldsCut I p e := by
    intro e he
    rw [← cut_iff_of_dates I p _ (hdate _ (List.mem_append_left _ (List.mem_map_of_mem he)))]
    refine cut_subs I p _ e hsep ?_
    intro kv hk hs t
    rw [(ho _).mem_iff, mem_endoDict] at hk
    obtain ⟨v, hv, ⟨j, hj, rfl⟩ | ⟨j, hj, rfl⟩⟩ := hk
    · simp only [Spec.cutAt, vsym, TSym.mk', if_true]
      rw [min_eq_left (by omega), min_eq_left (by omega), hlag v hv j hj]
      congr 1; ring
    · simp only [Spec.cutAt, vsym, TSym.mk', if_true]
      rw [min_eq_right (by omega), min_eq_left (by omega), hld v hv j hj]
      congr 1; ring
  constructor
  · intro h e he
    exact (hall e he).1 (h _ (List.mem_map_of_mem he))
  · intro h e he
    obtain ⟨e0, he0, rfl⟩ := List.mem_map.1 he
    exact (hall e0 he0).2 (h e0 he0)

/-- **C37**, exactly, for leads and lags of any length: the parsed system has the solutions of the declared one in which every lead of more than two
periods is replaced by the lead of two periods. -/
theorem C37_leads_cut (I : Interp K) (ho : IsOrder ord) (h : parseEqs ord vars shocks eqs = .ok st) (M : Mats K)
    (hM : getMatrices I true st.vars shocks st.eqs = .ok M) (hdecl : DeclaredVars vars eqs) (y : Path K) :
    Spec.SolvesCut I eqs y ↔ ∃ y', AgreeOn vars y y' ∧ Solves I st.eqs y' := by
  have hcongr : ∀ y' : Path K, AgreeOn vars y y' → (Spec.SolvesCut I eqs y ↔ Spec.SolvesCut I eqs y') := by
    intro y' ha
    refine forall_congr' fun e => forall_congr' fun he => cut_congr I _ _ e ?_
    intro s hs t
    by_cases hk : s.kind = .variable
    · rw [hk]; exact (ha.2 _ (hdecl e he s hs hk) t).symm
    · have hk' : s.kind = .shock := by
        cases h' : s.kind
        · exact absurd h' hk
        · rfl
      rw [hk']; exact (ha.1 _ t).symm
  constructor
  · intro hy
    have hsolve := cut_solves I ho h M hM
    have hnd := added_nodup I h M hM
    obtain ⟨hlen, rfl⟩ := parseEqs_ok h
    set s1 := shockStage ord vars shocks eqs with hs1
    have hv1 : s1.vars = vars ++ (lagged (lagOf eqs) shocks).map varOf := shockFold_vars ord _ shocks ⟨vars, eqs⟩
    rcases hnd with hnd | ⟨h1, h2⟩
    · rw [endoStage_vars] at hnd
      have hnd1 : (vars ++ (lagged (lagOf eqs) shocks).map varOf).Nodup := by
        rw [← hv1]; exact (List.nodup_append.1 hnd).1
      obtain ⟨_, hn2, hn3⟩ := List.nodup_append.1 hnd1
      let y1 := extShock y (lagged (lagOf eqs) shocks)
      have hkeys : ((lagged (lagOf eqs) shocks).map (fun s => (varOf s, y .shock s))).map Prod.fst
          = (lagged (lagOf eqs) shocks).map varOf := by
        rw [List.map_map]; rfl
      have hy1 : ∀ s ∈ lagged (lagOf eqs) shocks, ∀ t, y1 .variable (varOf s) t = y .shock s t := by
        intro s hs t
        exact override_mem _ _ (by rw [hkeys]; exact hn2) _ (y .shock s) (List.mem_map.2 ⟨s, hs, rfl⟩) t
      have hy1v : ∀ v ∈ vars, ∀ t, y1 .variable v t = y .variable v t := by
        intro v hv t
        exact override_not_mem _ _ _ (by rw [hkeys]; intro hm; exact hn3 v hv v hm rfl) t
      obtain ⟨m1, m2, m3⟩ := extEndo_meaning y1 s1.vars (nOf s1) (kOf s1) hnd
      have hin : ∀ w ∈ s1.vars, w ∉ endoNames s1.vars (nOf s1) (kOf s1) :=
        fun w hw hm => (List.nodup_append.1 hnd).2.2 w hw w hm rfl
      have hagree : AgreeOn vars y (extEndo y1 s1.vars (nOf s1) (kOf s1)) := by
        refine ⟨fun s t => rfl, fun v hv t => ?_⟩
        rw [m3 v (hin v (by rw [hv1]; exact List.mem_append_left _ hv)), hy1v v hv]
      refine ⟨extEndo y1 s1.vars (nOf s1) (kOf s1), hagree, (hsolve _).2 ⟨(hcongr _ hagree).1 hy, ?_, m1, m2⟩⟩
      intro s hs t
      rw [m3 (varOf s) (hin _ (by rw [hv1]; exact List.mem_append_right _ (List.mem_map_of_mem hs))), hy1 s hs]
      rfl
    · refine ⟨y, ⟨fun _ _ => rfl, fun _ _ _ => rfl⟩, (hsolve y).2 ⟨hy, by simp [h1], ?_, ?_⟩⟩
      · intro v hv j hj t
        have : lagVar v (j + 1) ∈ endoNames s1.vars (nOf s1) (kOf s1) := (mem_endoNames _ _ _ _).2 ⟨v, hv, Or.inl ⟨j, hj, rfl⟩⟩
        rw [h2] at this; cases this
      · intro v hv j hj t
        have : leadVar v (j + 1) ∈ endoNames s1.vars (nOf s1) (kOf s1) := (mem_endoNames _ _ _ _).2 ⟨v, hv, Or.inr ⟨j, hj, rfl⟩⟩
        rw [h2] at this; cases this
  · rintro ⟨y', ha, hy'⟩
    exact (hcongr y' ha).2 ((cut_solves I ho h M hM y').1 hy').1

/-- **C37**, when the parser is exact: iff cutting the leads does not change the solutions. -/
theorem C37_exact_iff (I : Interp K) (ho : IsOrder ord) (h : parseEqs ord vars shocks eqs = .ok st) (M : Mats K)
    (hM : getMatrices I true st.vars shocks st.eqs = .ok M) (hdecl : DeclaredVars vars eqs) :
    (∀ y, Solves I eqs y ↔ ∃ y', AgreeOn vars y y' ∧ Solves I st.eqs y') ↔ ∀ y, Solves I eqs y ↔ Spec.SolvesCut I eqs y :=
  forall_congr' fun y => by rw [C37_leads_cut I ho h M hM hdecl y]

/-- **C36, C37, C38**, the added variables, for leads and lags of any length: in every solution of the parsed system the variable for lag `i + 2` is lag
`i + 1`, the variable of a lagged shock is the shock, and the variable for lead `i + 2` is the lead of one period (not of `i + 1` periods). -/
theorem C37_added_variables (I : Interp K) (ho : IsOrder ord) (h : parseEqs ord vars shocks eqs = .ok st) (M : Mats K)
    (hM : getMatrices I true st.vars shocks st.eqs = .ok M) (e : Eqn K) (he : e ∈ eqs) (i : Nat) :
    (∀ v ∈ vars, vsym v (-((i : Int) + 2)) ∈ e.syms → lagVar v (i + 1) ∈ st.vars ∧
      ∀ y, Solves I st.eqs y → ∀ t, y .variable (lagVar v (i + 1)) t = y .variable v (t - ((i : Int) + 1))) ∧
    (∀ v ∈ vars, vsym v ((i : Int) + 2) ∈ e.syms → leadVar v (i + 1) ∈ st.vars ∧
      ∀ y, Solves I st.eqs y → ∀ t, y .variable (leadVar v (i + 1)) t = y .variable v (t + 1)) ∧
    ∀ s ∈ shocks, ssym s (-((i : Int) + 1)) ∈ e.syms → varOf s ∈ st.vars ∧
      ∀ y, Solves I st.eqs y → ∀ t, y .variable (varOf s) t = y .shock s t := by
  have hv1 : (shockStage ord vars shocks eqs).vars = vars ++ (lagged (lagOf eqs) shocks).map varOf :=
    shockFold_vars ord _ shocks ⟨vars, eqs⟩
  have hsolve := cut_solves I ho h M hM
  obtain ⟨_, rfl⟩ := parseEqs_ok h
  have hin : ∀ v ∈ vars, v ∈ (shockStage ord vars shocks eqs).vars := fun v hv => by rw [hv1]; exact List.mem_append_left _ hv
  refine ⟨fun v hv hi => ?_, fun v hv hi => ?_, fun s hs hi => ?_⟩
  · obtain ⟨e', he', hs'⟩ := shockFold_keeps ho (lagOf eqs) shocks ⟨vars, eqs⟩ e he _ hi rfl
    have hmin := minDate_le _ _ (mem_dates (shockStage ord vars shocks eqs).eqs e' he' _ hs')
    simp only [vsym, TSym.mk'] at hmin
    have hn : i + 1 < nOf (shockStage ord vars shocks eqs) v := by
      show _ < (minDate (dates .variable v (shockStage ord vars shocks eqs).eqs)).natAbs
      omega
    refine ⟨?_, fun y hy => ((hsolve y).1 hy).2.2.1 v (hin v hv) i hn⟩
    rw [endoStage_vars]
    exact List.mem_append_right _ ((mem_endoNames _ _ _ _).2 ⟨v, hin v hv, Or.inl ⟨i, hn, rfl⟩⟩)
  · obtain ⟨e', he', hs'⟩ := shockFold_keeps ho (lagOf eqs) shocks ⟨vars, eqs⟩ e he _ hi rfl
    have hmax := le_maxDate _ _ (mem_dates (shockStage ord vars shocks eqs).eqs e' he' _ hs')
    simp only [vsym, TSym.mk'] at hmax
    have hn : i + 1 < kOf (shockStage ord vars shocks eqs) v := by
      show _ < (maxDate (dates .variable v (shockStage ord vars shocks eqs).eqs)).natAbs
      omega
    refine ⟨?_, fun y hy => ((hsolve y).1 hy).2.2.2 v (hin v hv) i hn⟩
    rw [endoStage_vars]
    exact List.mem_append_right _ ((mem_endoNames _ _ _ _).2 ⟨v, hin v hv, Or.inr ⟨i, hn, rfl⟩⟩)
  · have hmin := minDate_le _ _ (mem_dates eqs e he _ hi)
    simp only [ssym, TSym.mk'] at hmin
    have hl : s ∈ lagged (lagOf eqs) shocks := by
      simp only [lagged, List.mem_filter, decide_eq_true_eq]
      refine ⟨hs, ?_⟩
      show 0 < (minDate (dates .shock s eqs)).natAbs
      omega
    refine ⟨?_, fun y hy => ((hsolve y).1 hy).2.1 s hl⟩
    rw [endoStage_vars, hv1]
    exact List.mem_append_left _ (List.mem_append_right _ (List.mem_map_of_mem hl))

/-- **C37**, what is not affected: a path on which every variable with a lead of `d > 2` periods repeats itself after `d - 2` periods solves the declared
equations iff it solves the parsed ones. -/
theorem C37_periodic (I : Interp K) (ho : IsOrder ord) (h : parseEqs ord vars shocks eqs = .ok st) (M : Mats K)
    (hM : getMatrices I true st.vars shocks st.eqs = .ok M) (hdecl : DeclaredVars vars eqs) (y : Path K)
    (hy : ∀ e ∈ eqs, ∀ s ∈ e.syms, s.kind = .variable → 2 < s.date → ∀ t, y .variable s.name (t + s.date) = y .variable s.name (t + 2)) :
    Solves I eqs y ↔ ∃ y', AgreeOn vars y y' ∧ Solves I st.eqs y' := by
  rw [← C37_leads_cut I ho h M hM hdecl y]
  refine forall_congr' fun e => forall_congr' fun he => forall_congr' fun t => ?_
  have key : ∀ s ∈ e.syms, y.at t s = Spec.cutAt y t s := by
    intro s hs
    simp only [Spec.cutAt, Path.at]
    by_cases hk : s.kind = .variable
    · rw [if_pos hk]
      rcases le_or_gt s.date 2 with hd | hd
      · rw [min_eq_left hd]
      · rw [min_eq_right hd.le, hk, hy e he s hs hk hd t]
    · rw [if_neg hk]
  rw [Expr.eval_congr I (y.at t) (Spec.cutAt y t) e.lhs, Expr.eval_congr I (y.at t) (Spec.cutAt y t) e.rhs]
  · intro s hs; exact key s (by simp [Eqn.syms, hs])
  · intro s hs; exact key s (by simp [Eqn.syms, hs])

/-- **C37**, steady states: a constant path solves the declared equations iff it solves the parsed ones, whatever the leads and lags. -/
theorem C37_steady_states (I : Interp K) (ho : IsOrder ord) (h : parseEqs ord vars shocks eqs = .ok st) (M : Mats K)
    (hM : getMatrices I true st.vars shocks st.eqs = .ok M) (hdecl : DeclaredVars vars eqs) (c : Kind → String → K) :
    Solves I eqs (fun k n _ => c k n) ↔ ∃ y', AgreeOn vars (fun k n _ => c k n) y' ∧ Solves I st.eqs y' :=
  C37_periodic I ho h M hM hdecl _ fun _ _ _ _ _ _ _ => rfl

end

/-- The hypotheses with a lead of three periods (`y = x + x(3)`), and what the parsed system says of `x` and `y`. -/
theorem C37_leads_cut_met : ∃ (I : Interp Rat) (M : Mats Rat), parseEqs id ["x", "y"] [] ParseEx.eqs3 = .ok ParseEx.parsed3 ∧
    getMatrices I true ParseEx.parsed3.vars [] ParseEx.parsed3.eqs = .ok M ∧ DeclaredVars ["x", "y"] ParseEx.eqs3 ∧
    ∀ y : Path Rat, (∃ y', AgreeOn ["x", "y"] y y' ∧ Solves I ParseEx.parsed3.eqs y') ↔
      ∀ t, y .variable "y" t = y .variable "x" t + y .variable "x" (t + 2) := by
  let I : Interp Rat := ⟨fun _ => 0, fun _ _ _ => 0⟩
  obtain ⟨M, hM⟩ := C36_accepted I (ord := id) (fun d => List.Perm.refl d) ParseEx.parse3_eq
    (by unfold WellFormed; decide +kernel) (by decide +kernel) (by decide +kernel)
  have hd : DeclaredVars ["x", "y"] ParseEx.eqs3 := by unfold DeclaredVars; decide +kernel
  refine ⟨I, M, ParseEx.parse3_eq, hM, hd, fun y => ?_⟩
  rw [← C37_leads_cut I (fun d => List.Perm.refl d) ParseEx.parse3_eq M hM hd y]
  simp [Spec.SolvesCut, Spec.HoldsCut, ParseEx.eqs3, Expr.eval, Spec.cutAt, vsym, TSym.mk']

/-- With `y = x + x(3)`: `x = 1`, `y = 2` is a steady state of the declared system, and so of the parsed one; `x = 1`, `y = 1` of neither. -/
theorem C37_steady_states_met : ∃ (I : Interp Rat) (c c' : Kind → String → Rat),
    Solves I ParseEx.eqs3 (fun k n _ => c k n) ∧ ¬ Solves I ParseEx.eqs3 (fun k n _ => c' k n) ∧
    (∃ y', AgreeOn ["x", "y"] (fun k n _ => c k n) y' ∧ Solves I ParseEx.parsed3.eqs y') ∧
    ¬ ∃ y', AgreeOn ["x", "y"] (fun k n _ => c' k n) y' ∧ Solves I ParseEx.parsed3.eqs y' := by
  obtain ⟨I, M, h1, hM, hd, _⟩ := C37_leads_cut_met
  have h := fun c => C37_steady_states I (fun d => List.Perm.refl d) h1 M hM hd c
  have a : Solves I ParseEx.eqs3 (fun _ n _ => if n = "x" then 1 else 2) := by
    simp [Solves, Holds, ParseEx.eqs3, Expr.eval, Path.at, vsym, TSym.mk']
    norm_num
  have b : ¬ Solves I ParseEx.eqs3 (fun _ _ _ => 1) := by
    simp [Solves, Holds, ParseEx.eqs3, Expr.eval, Path.at, vsym, TSym.mk']
  exact ⟨I, fun _ n => if n = "x" then 1 else 2, fun _ _ => 1, a, b, (h _).1 a, fun hy => b ((h fun _ _ => 1).2 hy)⟩

end Pydsge
