import Verif.Model.Pipeline
import Verif.Spec.ModelFile
import Verif.Props.Parser
import Verif.Props.Matrices

/-!
# Parsing, period by period; substitutions keep equations linear
-/

set_option autoImplicit false
set_option linter.unusedSectionVars false
set_option linter.unusedSimpArgs false

namespace Pydsge
open Parser Spec

namespace Expr
variable {K : Type} [Field K]

theorem eval_subs1' (I : Interp K) (ρ : TSym → K) (k v : TSym) (e : Expr K) :
    (e.subs1 k v).eval I ρ = e.eval I (fun s => if s = k then ρ v else ρ s) := by
  induction e with
  | num c => rfl
  | par c => rfl
  | sym t => simp only [subs1, eval]; split <;> rfl
  | neg a ih => simp only [subs1, eval, ih]
  | pow a n ih => simp only [subs1, eval, ih]
  | _ => rename_i iha ihb; simp only [subs1, eval, iha, ihb]

theorem new_mem_subs1 (k v : TSym) (e : Expr K) (h : k ∈ e.syms) : v ∈ (e.subs1 k v).syms := by
  induction e with
  | num c => simp [syms] at h
  | par c => simp [syms] at h
  | sym t =>
    simp only [syms, List.mem_singleton] at h
    subst h
    simp [subs1, syms]
  | neg a ih => exact ih h
  | pow a n ih => exact ih h
  | _ =>
    rename_i iha ihb
    simp only [subs1, syms, List.mem_append] at h ⊢
    exact h.imp iha ihb

theorem syms_nil_subs1 (k v : TSym) (e : Expr K) (h : e.syms = []) : (e.subs1 k v).syms = [] := by
  rw [subs1_of_not_mem k v e (by simp [h]), h]

theorem polyForm_subs1 (k v : TSym) (e : Expr K) (h : e.PolyForm) : (e.subs1 k v).PolyForm := by
  induction e with
  | num c => trivial
  | par c => trivial
  | sym t => simp only [subs1]; split <;> trivial
  | neg a ih => exact ih h
  | pow a n ih => exact ih h
  | add a b iha ihb => exact ⟨iha h.1, ihb h.2⟩
  | sub a b iha ihb => exact ⟨iha h.1, ihb h.2⟩
  | mul a b iha ihb => exact ⟨iha h.1, ihb h.2⟩
  | div a b iha ihb => exact ⟨iha h.1, syms_nil_subs1 k v b h.2⟩
  | app f a b iha ihb => exact ⟨syms_nil_subs1 k v a h.1, syms_nil_subs1 k v b h.2⟩

theorem affine_subs1 (I : Interp K) (k v : TSym) (e : Expr K) (c : TSym → K) (a : K) (h : e.AffineWith I c a) :
    ∃ c', (e.subs1 k v).AffineWith I c' a := by
  classical
  by_cases hk : k ∈ e.syms
  · refine ⟨fun s => (if s ∈ e.syms.toFinset.erase k then c s else 0) + (if s = v then c k else 0), fun ρ => ?_⟩
    rw [eval_subs1', h]
    congr 1
    have hV : (e.subs1 k v).syms.toFinset = insert v (e.syms.toFinset.erase k) := by
      ext s
      simp only [List.mem_toFinset, Finset.mem_insert, Finset.mem_erase]
      constructor
      · intro hs
        rcases syms_subs1 k v e s hs with hs | hs
        · exact Or.inl hs
        · exact Or.inr ⟨hs.2, hs.1⟩
      · rintro (rfl | hs)
        · exact new_mem_subs1 k s e hk
        · exact mem_subs1 k v e s hs.2 hs.1
    rw [hV]
    have hU : e.syms.toFinset = insert k (e.syms.toFinset.erase k) := by
      rw [Finset.insert_erase (by simpa using hk)]
    conv_lhs => rw [hU]
    rw [Finset.sum_insert (by simp)]
    simp only [if_true, add_mul, ite_mul, zero_mul, Finset.sum_add_distrib]
    rw [Finset.sum_ite_eq' _ v (fun s => c k * ρ s), if_pos (Finset.mem_insert_self _ _), add_comm]
    congr 1
    rw [← Finset.sum_filter]
    have : (insert v (e.syms.toFinset.erase k)).filter (fun s => s ∈ e.syms.toFinset.erase k) = e.syms.toFinset.erase k := by
      ext s
      simp only [Finset.mem_filter, Finset.mem_insert]
      exact ⟨fun h => h.2, fun h => ⟨Or.inr h, h⟩⟩
    rw [this]
    refine Finset.sum_congr rfl fun s hs => ?_
    rw [if_neg (Finset.ne_of_mem_erase hs)]
  · rw [subs1_of_not_mem k v e hk]
    exact ⟨c, h⟩

theorem linear_subs (I : Interp K) (d : List (TSym × TSym)) (e : Expr K) (a : K) (hp : e.PolyForm) (h : ∃ c, e.AffineWith I c a) :
    (e.subs d).PolyForm ∧ ∃ c, (e.subs d).AffineWith I c a := by
  induction d generalizing e with
  | nil => exact ⟨hp, h⟩
  | cons kv d ih =>
    rw [subs_cons]
    obtain ⟨c, h⟩ := h
    exact ih _ (polyForm_subs1 _ _ _ hp) (affine_subs1 I _ _ e c a h)

theorem subs_sub (d : List (TSym × TSym)) (a b : Expr K) : (Expr.sub a b).subs d = .sub (a.subs d) (b.subs d) := by
  induction d generalizing a b with
  | nil => rfl
  | cons kv d ih => rw [subs_cons, subs_cons, subs_cons]; exact ih _ _

theorem diff_not_mem (I : Interp K) (s : TSym) (e : Expr K) (h : s ∉ e.syms) (ρ : TSym → K) : (e.diff s).eval I ρ = 0 := by
  induction e with
  | num c => rfl
  | par c => rfl
  | sym t =>
    simp only [syms, List.mem_singleton] at h
    simp only [diff, if_neg (Ne.symm h), eval]
  | neg a ih => simp only [diff, eval, ih h, neg_zero]
  | pow a n ih => simp only [diff, eval, ih h, mul_zero]
  | _ =>
    rename_i iha ihb
    simp only [syms, List.mem_append, not_or] at h
    simp [diff, eval, iha h.1, ihb h.2]

end Expr

namespace Parser
variable {K : Type} [Field K]

theorem linearEq_subs (I : Interp K) (d : List (TSym × TSym)) (e : Eqn K) (h : LinearEq I e) : LinearEq I (e.subs d) := by
  have := Expr.linear_subs I d e.setEqZero 0 h.1 h.2
  unfold LinearEq
  have he : (e.subs d).setEqZero = e.setEqZero.subs d := (Expr.subs_sub d e.lhs e.rhs).symm
  rw [he]
  exact this

/-- `v = w` for two different symbols is linear. -/
theorem linearEq_syms (I : Interp K) (v w : TSym) (h : v ≠ w) : LinearEq I (⟨.sym v, .sym w⟩ : Eqn K) := by
  classical
  refine ⟨⟨trivial, trivial⟩, fun s => if s = v then 1 else -1, fun ρ => ?_⟩
  have : (Eqn.setEqZero (⟨.sym v, .sym w⟩ : Eqn K)).syms.toFinset = {v, w} := by
    ext s; simp [Eqn.setEqZero, Expr.syms]
  rw [this, Finset.sum_pair h]
  simp only [Eqn.setEqZero, Expr.eval, if_true, if_neg (Ne.symm h)]
  ring

section
variable {ord : List (TSym × TSym) → List (TSym × TSym)} {vars shocks : List String} {eqs : List (Eqn K)} {st : PState K}

theorem shockFold_linear (I : Interp K) (lag : String → Int) (shocks : List String) (st : PState K) (h : ∀ e ∈ st.eqs, LinearEq I e) :
    ∀ e ∈ (shocks.foldl (shockStep ord lag) st).eqs, LinearEq I e := by
  induction shocks generalizing st with
  | nil => exact h
  | cons s ss ih =>
    rw [List.foldl_cons]
    refine ih _ ?_
    unfold shockStep
    by_cases hl : (lag s).natAbs > 0
    · rw [if_pos hl]
      intro e he
      obtain ⟨e0, he0, rfl⟩ := List.mem_map.1 he
      refine linearEq_subs I _ e0 ?_
      rcases List.mem_append.1 he0 with he0 | he0
      · exact h e0 he0
      · simp only [List.mem_singleton] at he0
        subst he0
        exact linearEq_syms I _ _ vsym_ne_ssym
    · rw [if_neg hl]; exact h

theorem endoEqs_linear (I : Interp K) (vars : List String) (n k : String → Nat) : ∀ e ∈ endoEqs (K := K) vars n k, LinearEq I e := by
  intro e he
  simp only [endoEqs, lagEqs, leadEqs, List.mem_flatMap, List.mem_append, List.mem_map, List.mem_range] at he
  obtain ⟨v, _, ⟨j, _, rfl⟩ | ⟨j, _, rfl⟩⟩ := he
  · refine linearEq_syms I _ _ ?_
    unfold lagRhs
    split <;> (intro h; have := (vsym_inj.1 h).2; omega)
  · exact linearEq_syms I _ _ (by intro h; have := (vsym_inj.1 h).2; omega)

/-- Parsing keeps linear equations linear. -/
theorem parse_linear (I : Interp K) (h : parseEqs ord vars shocks eqs = .ok st) (hl : ∀ e ∈ eqs, LinearEq I e) :
    ∀ e ∈ st.eqs, LinearEq I e := by
  obtain ⟨_, rfl⟩ := parseEqs_ok h
  rw [endoStage_eqs]
  intro e he
  obtain ⟨e0, he0, rfl⟩ := List.mem_map.1 he
  refine linearEq_subs I _ e0 ?_
  rcases List.mem_append.1 he0 with he0 | he0
  · exact shockFold_linear I _ shocks ⟨vars, eqs⟩ hl e0 he0
  · exact endoEqs_linear I _ _ _ e0 he0

/-- A substitution does not matter in period `t` if keys and values agree there. -/
theorem holdsAt_subs (I : Interp K) (p : Path K) (d : List (TSym × TSym)) (e : Eqn K) (t : Int)
    (hd : ∀ kv ∈ d, ∀ kv' ∈ d, kv.2 ≠ kv'.1) (h : ∀ kv ∈ d, kv.1 ∈ e.syms → p.at t kv.1 = p.at t kv.2) :
    HoldsAt I p (e.subs d) t ↔ HoldsAt I p e t := by
  unfold HoldsAt Eqn.subs
  rw [Expr.eval_subs I _ d e.lhs hd, Expr.eval_subs I _ d e.rhs hd]
  · intro kv hm hs; exact h kv hm (by simp [Eqn.syms, hs])
  · intro kv hm hs; exact h kv hm (by simp [Eqn.syms, hs])

theorem shockDict_ord_sep (ho : IsOrder ord) (s : String) (n : Nat) :
    ∀ kv ∈ ord (shockDict s n), ∀ kv' ∈ ord (shockDict s n), kv.2 ≠ kv'.1 := by
  intro kv hk kv' hk'
  exact shockDict_sep _ _ _ ((ho _).mem_iff.1 hk) _ ((ho _).mem_iff.1 hk')

/-- Undo the treatment of the shocks, period by period: the definition of the new variables is among the equations. -/
theorem shockFold_holdsAt (I : Interp K) (ho : IsOrder ord) (lag : String → Int) (shocks : List String) (st : PState K) (p : Path K)
    (hneg : ∀ s t, t < 0 → p .variable (varOf s) t = p .shock s t)
    (h : ∀ e ∈ (shocks.foldl (shockStep ord lag) st).eqs, ∀ t, 0 ≤ t → HoldsAt I p e t) :
    ∀ e ∈ st.eqs, ∀ t, 0 ≤ t → HoldsAt I p e t := by
  induction shocks generalizing st with
  | nil => exact h
  | cons s ss ih =>
    rw [List.foldl_cons] at h
    have h1 := ih _ h
    unfold shockStep at h1
    by_cases hl : (lag s).natAbs > 0
    · rw [if_pos hl] at h1
      have hmem : ∀ kv, kv ∈ ord (shockDict s (lag s).natAbs) ↔ kv ∈ shockDict s (lag s).natAbs := fun kv => (ho _).mem_iff
      have hdef : Eqn.subs (ord (shockDict s (lag s).natAbs)) (⟨.sym (vsym (varOf s)), .sym (ssym s)⟩ : Eqn K)
          = ⟨.sym (vsym (varOf s)), .sym (ssym s)⟩ := by
        refine Eqn.subs_of_not_mem _ _ ?_
        intro kv hk hs
        rw [hmem, shockDict, List.mem_map] at hk
        obtain ⟨i, _, rfl⟩ := hk
        simp only [Eqn.syms, Expr.syms, List.mem_append, List.mem_singleton] at hs
        rcases hs with hs | hs
        · exact vsym_ne_ssym hs.symm
        · have := (ssym_inj.1 hs).2; omega
      have hall : ∀ t, p .variable (varOf s) t = p .shock s t := by
        intro t
        by_cases ht : t < 0
        · exact hneg s t ht
        · have := h1 ⟨.sym (vsym (varOf s)), .sym (ssym s)⟩
            (List.mem_map.2 ⟨_, List.mem_append_right _ (List.mem_singleton.2 rfl), hdef⟩) t (by omega)
          simpa [HoldsAt, Expr.eval, Path.at, vsym, ssym, TSym.mk'] using this
      intro e he t ht
      refine (holdsAt_subs I p _ e t (shockDict_ord_sep ho s _) ?_).1
        (h1 _ (List.mem_map_of_mem (List.mem_append_left _ he)) t ht)
      intro kv hk _
      rw [hmem, shockDict, List.mem_map] at hk
      obtain ⟨i, _, rfl⟩ := hk
      simp only [Path.at, vsym, ssym, TSym.mk', hall]
    · rw [if_neg hl] at h1; exact h1

/-- Undo the treatment of leads and lags, period by period. -/
theorem endo_holdsAt (I : Interp K) (ho : IsOrder ord) (vars : List String) (n k : String → Nat) (eqs : List (Eqn K))
    (hlead : LeadsAtMost 2 eqs) (p : Path K)
    (hpast : ∀ v, ∀ j : Nat, p .variable (lagVar v (j + 1)) (-1) = p .variable v (-1 - ((j : Int) + 1)))
    (h : ∀ e ∈ (eqs ++ endoEqs vars n k).map (Eqn.subs (ord (endoDict vars n k))), ∀ t, 0 ≤ t → HoldsAt I p e t) :
    ∀ e ∈ eqs, ∀ t, 0 ≤ t → HoldsAt I p e t := by
  have hsep : ∀ kv ∈ ord (endoDict vars n k), ∀ kv' ∈ ord (endoDict vars n k), kv.2 ≠ kv'.1 := by
    intro kv hk kv' hk'
    exact endoDict_sep _ _ _ _ ((ho _).mem_iff.1 hk) _ ((ho _).mem_iff.1 hk')
  rw [List.map_append, endoEqs_subs ord ho] at h
  have hnew : ∀ e ∈ endoEqs (K := K) vars n k, ∀ t, 0 ≤ t → HoldsAt I p e t := fun e he => h e (List.mem_append_right _ he)
  have hlag : ∀ v ∈ vars, ∀ j : Nat, j + 1 < n v → ∀ t, -1 ≤ t →
      p .variable (lagVar v (j + 1)) t = p .variable v (t - ((j : Int) + 1)) := by
    intro v hv j
    induction j with
    | zero =>
      intro hj t ht
      by_cases h0 : t = -1
      · subst h0; exact hpast v 0
      · have := hnew ⟨.sym (vsym (lagVar v (0 + 1))), .sym (lagRhs v (0 + 1))⟩
          (List.mem_flatMap.2 ⟨v, hv, List.mem_append_left _ (List.mem_map.2 ⟨0, List.mem_range.2 (by omega), rfl⟩)⟩) t (by omega)
        simp only [HoldsAt, Expr.eval, Path.at, vsym, TSym.mk', lagRhs, zero_add, if_true, add_zero] at this
        rw [zero_add, this]
        congr 1
    | succ j ih =>
      intro hj t ht
      by_cases h0 : t = -1
      · subst h0; exact hpast v (j + 1)
      · have := hnew ⟨.sym (vsym (lagVar v (j + 1 + 1))), .sym (lagRhs v (j + 1 + 1))⟩
          (List.mem_flatMap.2 ⟨v, hv, List.mem_append_left _ (List.mem_map.2 ⟨j + 1, List.mem_range.2 (by omega), rfl⟩)⟩) t (by omega)
        simp only [HoldsAt, Expr.eval, Path.at, vsym, TSym.mk', lagRhs, show j + 1 + 1 ≠ 1 by omega, if_false, Nat.add_sub_cancel,
          add_zero] at this
        rw [this, ih (by omega) (t + -1) (by omega)]
        congr 1; push_cast; ring
  have hld : ∀ v ∈ vars, ∀ j : Nat, j + 1 < k v → ∀ t, 0 ≤ t → p .variable (leadVar v (j + 1)) t = p .variable v (t + 1) := by
    intro v hv j hj t ht
    have := hnew ⟨.sym (vsym (leadVar v (j + 1))), .sym (vsym v 1)⟩
      (List.mem_flatMap.2 ⟨v, hv, List.mem_append_right _ (List.mem_map.2 ⟨j, List.mem_range.2 (by omega), rfl⟩)⟩) t ht
    simpa [HoldsAt, Expr.eval, Path.at, vsym, TSym.mk'] using this
  intro e he t ht
  refine (holdsAt_subs I p _ e t hsep ?_).1 (h _ (List.mem_append_left _ (List.mem_map_of_mem he)) t ht)
  intro kv hk hs
  rw [(ho _).mem_iff, mem_endoDict] at hk
  obtain ⟨v, hv, ⟨j, hj, rfl⟩ | ⟨j, hj, rfl⟩⟩ := hk
  · simp only [Path.at, vsym, TSym.mk']
    rw [hlag v hv j hj _ (by omega)]
    congr 1; ring
  · have h2 := hlead e he _ hs rfl
    simp only [vsym, TSym.mk'] at h2
    have hj0 : j = 0 := by omega
    subst hj0
    simp only [Path.at, vsym, TSym.mk']
    rw [hld v hv 0 hj _ (by omega)]
    congr 1; push_cast; ring

/-- From the parsed equations back to the declared ones, for periods from 0 on. -/
theorem parse_holdsAt (I : Interp K) (ho : IsOrder ord) (h : parseEqs ord vars shocks eqs = .ok st) (hlead : LeadsAtMost 2 eqs)
    (p : Path K) (hneg : ∀ s t, t < 0 → p .variable (varOf s) t = p .shock s t)
    (hpast : ∀ v, ∀ j : Nat, p .variable (lagVar v (j + 1)) (-1) = p .variable v (-1 - ((j : Int) + 1)))
    (hst : ∀ e ∈ st.eqs, ∀ t, 0 ≤ t → HoldsAt I p e t) : ∀ e ∈ eqs, ∀ t, 0 ≤ t → HoldsAt I p e t := by
  obtain ⟨_, rfl⟩ := parseEqs_ok h
  refine shockFold_holdsAt I ho (lagOf eqs) shocks ⟨vars, eqs⟩ p hneg ?_
  refine endo_holdsAt I ho (shockStage ord vars shocks eqs).vars (nOf (shockStage ord vars shocks eqs))
    (kOf (shockStage ord vars shocks eqs)) _ (shockStage_leads ho 2 (by omega) hlead) p hpast ?_
  rw [endoStage_eqs] at hst
  exact hst

theorem pathFrom_neg (before : String → K) (x : Nat → String → K) (eps : String → K) (s : String) (t : Int) (ht : t < 0) :
    pathFrom before x eps .variable (varOf s) t = pathFrom before x eps .shock s t := by
  cases t with
  | ofNat n => exact absurd ht (by simp)
  | negSucc n => rfl

theorem pathFrom_past (before : String → K) (x : Nat → String → K) (eps : String → K) (v : String) (j : Nat) :
    pathFrom before x eps .variable (lagVar v (j + 1)) (-1) = pathFrom before x eps .variable v (-1 - ((j : Int) + 1)) := by
  have h1 : (-1 : Int) = .negSucc 0 := rfl
  have h2 : (-1 - ((j : Int) + 1)) = .negSucc (j + 1) := by omega
  rw [h2, h1]
  rfl

end

/-- Equations beyond the rows of the matrices contain nothing. -/
theorem getMatrices_rows (I : Interp K) (vars shocks : List String) (eqs : List (Eqn K)) (M : Mats K)
    (h : getMatrices I true vars shocks eqs = .ok M) (i : Nat) (e : Eqn K) (he : eqs[i]? = some e) (hi : M.vars.length - 1 ≤ i) :
    e.syms = [] := by
  unfold getMatrices at h
  simp only [if_true] at h
  split at h
  · cases h
  · rename_i u hc
    simp only [Except.ok.injEq] at h
    subst h
    have hrow := (checkRows_ok _ _ _ _ _).1 hc i e he
    unfold rowCheck at hrow
    split at hrow
    · cases hrow
    · split at hrow
      · cases hrow
      · rename_i hn
        by_contra hne
        exact hn ⟨hne, by simpa using hi⟩

end Parser
end Pydsge
