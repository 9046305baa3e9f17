import Verif.Model.Parser
import Verif.Spec.PathEq
import Mathlib.Tactic.Ring
import Mathlib.Data.List.Nodup
import Mathlib.Data.List.Dedup

/-!
# Substitutions, and what the added variables stand for
-/

set_option autoImplicit false
set_option linter.unusedSectionVars false
set_option linter.unusedSimpArgs false

namespace Pydsge

namespace Expr
variable {K : Type}

theorem syms_subs1 (k v : TSym) (e : Expr K) :
    ∀ s ∈ (e.subs1 k v).syms, s = v ∨ (s ∈ e.syms ∧ s ≠ k) := by
  induction e with
  | num c => intro s h; simp [subs1, syms] at h
  | par c => intro s h; simp [subs1, syms] at h
  | sym t =>
    intro s h
    simp only [subs1] at h
    split at h
    · simp [syms] at h; exact Or.inl h
    · rename_i hne
      simp [syms] at h; subst h; exact Or.inr ⟨by simp [syms], hne⟩
  | neg a ih => intro s h; exact ih s h
  | pow a n ih => intro s h; exact ih s h
  | _ =>
    rename_i iha ihb
    intro s h
    simp only [subs1, syms, List.mem_append] at h ⊢
    rcases h with h | h
    · rcases iha s h with h | h
      · exact Or.inl h
      · exact Or.inr ⟨Or.inl h.1, h.2⟩
    · rcases ihb s h with h | h
      · exact Or.inl h
      · exact Or.inr ⟨Or.inr h.1, h.2⟩

theorem subs1_of_not_mem (k v : TSym) (e : Expr K) (h : k ∉ e.syms) : e.subs1 k v = e := by
  induction e with
  | num c => rfl
  | par c => rfl
  | sym t => simp only [syms, List.mem_singleton] at h; simp only [subs1, if_neg (Ne.symm h)]
  | neg a ih => simp only [subs1]; rw [ih h]
  | pow a n ih => simp only [subs1]; rw [ih h]
  | _ =>
    rename_i iha ihb
    simp only [syms, List.mem_append, not_or] at h
    simp only [subs1]; rw [iha h.1, ihb h.2]

theorem subs_nil (e : Expr K) : e.subs [] = e := rfl

theorem subs_cons (kv : TSym × TSym) (d : List (TSym × TSym)) (e : Expr K) :
    e.subs (kv :: d) = (e.subs1 kv.1 kv.2).subs d := rfl

theorem subs_of_not_mem (d : List (TSym × TSym)) (e : Expr K) (h : ∀ kv ∈ d, kv.1 ∉ e.syms) : e.subs d = e := by
  induction d with
  | nil => rfl
  | cons kv d ih =>
    rw [subs_cons, subs1_of_not_mem _ _ _ (h kv (by simp))]
    exact ih (fun kv' hm => h kv' (by simp [hm]))

theorem syms_subs (d : List (TSym × TSym)) (e : Expr K) (hd : ∀ kv ∈ d, ∀ kv' ∈ d, kv.2 ≠ kv'.1) :
    ∀ s ∈ (e.subs d).syms, (∃ kv ∈ d, s = kv.2) ∨ (s ∈ e.syms ∧ ∀ kv ∈ d, s ≠ kv.1) := by
  induction d generalizing e with
  | nil => intro s h; exact Or.inr ⟨h, by simp⟩
  | cons kv d ih =>
    intro s h
    rw [subs_cons] at h
    rcases ih _ (fun a ha b hb => hd a (by simp [ha]) b (by simp [hb])) s h with ⟨kv', hm, h⟩ | ⟨h, hk⟩
    · exact Or.inl ⟨kv', by simp [hm], h⟩
    · rcases syms_subs1 _ _ _ s h with h | ⟨h, hne⟩
      · exact Or.inl ⟨kv, by simp, h⟩
      · refine Or.inr ⟨h, ?_⟩
        intro kv' hm
        rcases List.mem_cons.1 hm with rfl | hm
        · exact hne
        · exact hk kv' hm

variable [Field K]

theorem eval_congr (I : Interp K) (ρ ρ' : TSym → K) (e : Expr K) (h : ∀ s ∈ e.syms, ρ s = ρ' s) :
    e.eval I ρ = e.eval I ρ' := by
  induction e with
  | num c => rfl
  | par c => rfl
  | sym t => exact h t (by simp [syms])
  | neg a ih => simp only [eval]; rw [ih h]
  | pow a n ih => simp only [eval]; rw [ih h]
  | _ =>
    rename_i iha ihb
    simp only [eval]
    rw [iha (fun s hs => h s (by simp [syms, hs])), ihb (fun s hs => h s (by simp [syms, hs]))]

theorem eval_subs1 (I : Interp K) (ρ : TSym → K) (k v : TSym) (e : Expr K) (h : ρ k = ρ v) :
    (e.subs1 k v).eval I ρ = e.eval I ρ := by
  induction e with
  | num c => rfl
  | par c => rfl
  | sym t =>
    simp only [subs1]
    split
    · rename_i ht; subst ht; simp only [eval, h]
    · rfl
  | neg a ih => simp only [subs1, eval, ih]
  | pow a n ih => simp only [subs1, eval, ih]
  | _ => rename_i iha ihb; simp only [subs1, eval, iha, ihb]

theorem eval_subs (I : Interp K) (ρ : TSym → K) (d : List (TSym × TSym)) (e : Expr K)
    (hd : ∀ kv ∈ d, ∀ kv' ∈ d, kv.2 ≠ kv'.1) (h : ∀ kv ∈ d, kv.1 ∈ e.syms → ρ kv.1 = ρ kv.2) :
    (e.subs d).eval I ρ = e.eval I ρ := by
  induction d generalizing e with
  | nil => rfl
  | cons kv d ih =>
    have hd' : ∀ a ∈ d, ∀ b ∈ d, a.2 ≠ b.1 := fun a ha b hb => hd a (by simp [ha]) b (by simp [hb])
    rw [subs_cons]
    by_cases hm : kv.1 ∈ e.syms
    · rw [ih _ hd', eval_subs1 I ρ _ _ e (h kv (by simp) hm)]
      intro kv' hk' hs
      rcases syms_subs1 _ _ _ _ hs with hs | hs
      · exact absurd hs.symm (hd kv (by simp) kv' (by simp [hk']))
      · exact h kv' (by simp [hk']) hs.1
    · rw [subs1_of_not_mem _ _ _ hm]
      exact ih _ hd' (fun kv' hk' => h kv' (by simp [hk']))

end Expr

namespace Eqn
variable {K : Type}

theorem subs_of_not_mem (d : List (TSym × TSym)) (e : Eqn K) (h : ∀ kv ∈ d, kv.1 ∉ e.syms) : e.subs d = e := by
  simp only [subs]
  rw [Expr.subs_of_not_mem, Expr.subs_of_not_mem]
  · intro kv hm hs; exact h kv hm (by simp [syms, hs])
  · intro kv hm hs; exact h kv hm (by simp [syms, hs])

theorem syms_subs (d : List (TSym × TSym)) (e : Eqn K) (hd : ∀ kv ∈ d, ∀ kv' ∈ d, kv.2 ≠ kv'.1) :
    ∀ s ∈ (e.subs d).syms, (∃ kv ∈ d, s = kv.2) ∨ (s ∈ e.syms ∧ ∀ kv ∈ d, s ≠ kv.1) := by
  intro s hs
  simp only [syms, subs, List.mem_append] at hs ⊢
  rcases hs with hs | hs
  · rcases Expr.syms_subs d _ hd s hs with h | h
    · exact Or.inl h
    · exact Or.inr ⟨Or.inl h.1, h.2⟩
  · rcases Expr.syms_subs d _ hd s hs with h | h
    · exact Or.inl h
    · exact Or.inr ⟨Or.inr h.1, h.2⟩

variable [Field K]

theorem holds_subs (I : Interp K) (p : Path K) (d : List (TSym × TSym)) (e : Eqn K)
    (hd : ∀ kv ∈ d, ∀ kv' ∈ d, kv.2 ≠ kv'.1) (h : ∀ kv ∈ d, kv.1 ∈ e.syms → ∀ t, p.at t kv.1 = p.at t kv.2) :
    Holds I p (e.subs d) ↔ Holds I p e := by
  unfold Holds subs
  refine forall_congr' fun t => ?_
  rw [Expr.eval_subs I _ d e.lhs hd, Expr.eval_subs I _ d e.rhs hd]
  · intro kv hm hs; exact h kv hm (by simp [syms, hs]) t
  · intro kv hm hs; exact h kv hm (by simp [syms, hs]) t

end Eqn

theorem holds_congr {K : Type} [Field K] (I : Interp K) (p p' : Path K) (e : Eqn K)
    (h : ∀ s ∈ e.syms, ∀ t, p s.kind s.name t = p' s.kind s.name t) : Holds I p e ↔ Holds I p' e := by
  unfold Holds
  refine forall_congr' fun t => ?_
  rw [Expr.eval_congr I (p.at t) (p'.at t) e.lhs, Expr.eval_congr I (p.at t) (p'.at t) e.rhs]
  · intro s hs; exact h s (by simp [Eqn.syms, hs]) _
  · intro s hs; exact h s (by simp [Eqn.syms, hs]) _

namespace Parser
variable {K : Type} [Field K]

/-- `subs` may go through a dictionary in any order. -/
def IsOrder (ord : List (TSym × TSym) → List (TSym × TSym)) : Prop := ∀ d, (ord d).Perm d

theorem vsym_inj {a b : String} {c d : Int} : vsym a c = vsym b d ↔ a = b ∧ c = d := by simp [vsym, TSym.mk']
theorem ssym_inj {a b : String} {c d : Int} : ssym a c = ssym b d ↔ a = b ∧ c = d := by simp [ssym, TSym.mk']
theorem vsym_ne_ssym {a b : String} {c d : Int} : vsym a c ≠ ssym b d := by simp [vsym, ssym, TSym.mk']

theorem solves_append (I : Interp K) (a b : List (Eqn K)) (p : Path K) :
    Solves I (a ++ b) p ↔ Solves I a p ∧ Solves I b p := by
  simp only [Solves, List.mem_append]
  exact ⟨fun h => ⟨fun e he => h e (Or.inl he), fun e he => h e (Or.inr he)⟩,
    fun h e he => he.elim (h.1 e) (h.2 e)⟩

theorem shockDict_sep (s : String) (n : Nat) : ∀ kv ∈ shockDict s n, ∀ kv' ∈ shockDict s n, kv.2 ≠ kv'.1 := by
  intro kv hk kv' hk'
  simp only [shockDict, List.mem_map] at hk hk'
  obtain ⟨i, _, rfl⟩ := hk
  obtain ⟨j, _, rfl⟩ := hk'
  exact vsym_ne_ssym

/-- One shock: the new system says what the old one says, and that the new variable is the shock. -/
theorem shockStep_solves (I : Interp K) (ord : List (TSym × TSym) → List (TSym × TSym)) (ho : IsOrder ord)
    (lag : String → Int) (st : PState K) (s : String) (p : Path K) :
    Solves I (shockStep ord lag st s).eqs p ↔
      Solves I st.eqs p ∧ (0 < (lag s).natAbs → ∀ t, p .variable (varOf s) t = p .shock s t) := by
  unfold shockStep
  by_cases hl : (lag s).natAbs > 0
  · rw [if_pos hl]
    simp only [List.map_append, List.map_cons, List.map_nil, solves_append]
    have hmem : ∀ kv, kv ∈ ord (shockDict s (lag s).natAbs) ↔ kv ∈ shockDict s (lag s).natAbs := fun kv => (ho _).mem_iff
    have hsep : ∀ kv ∈ ord (shockDict s (lag s).natAbs), ∀ kv' ∈ ord (shockDict s (lag s).natAbs), kv.2 ≠ kv'.1 := by
      intro kv hk kv' hk'
      exact shockDict_sep _ _ _ ((hmem _).1 hk) _ ((hmem _).1 hk')
    have hdef : Eqn.subs (ord (shockDict s (lag s).natAbs)) (⟨.sym (vsym (varOf s)), .sym (ssym s)⟩ : Eqn K)
        = ⟨.sym (vsym (varOf s)), .sym (ssym s)⟩ := by
      refine Eqn.subs_of_not_mem _ _ ?_
      intro kv hk hs
      rw [hmem, shockDict, List.mem_map] at hk
      obtain ⟨i, _, rfl⟩ := hk
      simp only [Eqn.syms, Expr.syms, List.mem_append, List.mem_singleton] at hs
      rcases hs with hs | hs
      · exact vsym_ne_ssym hs.symm
      · have := (ssym_inj.1 hs).2; omega
    rw [hdef]
    have hd2 : Solves I [(⟨.sym (vsym (varOf s)), .sym (ssym s)⟩ : Eqn K)] p ↔
        ∀ t, p .variable (varOf s) t = p .shock s t := by
      simp [Solves, Holds, Expr.eval, Path.at, vsym, ssym, TSym.mk']
    rw [hd2]
    constructor
    · rintro ⟨h1, h2⟩
      refine ⟨fun e he => ?_, fun _ => h2⟩
      refine (Eqn.holds_subs I p _ e hsep ?_).1 (h1 _ (List.mem_map_of_mem he))
      intro kv hk _ t
      rw [hmem, shockDict, List.mem_map] at hk
      obtain ⟨i, _, rfl⟩ := hk
      simp only [Path.at, vsym, ssym, TSym.mk', h2]
    · rintro ⟨h1, h2⟩
      refine ⟨?_, h2 hl⟩
      intro e he
      obtain ⟨e0, he0, rfl⟩ := List.mem_map.1 he
      refine (Eqn.holds_subs I p _ e0 hsep ?_).2 (h1 _ he0)
      intro kv hk _ t
      rw [hmem, shockDict, List.mem_map] at hk
      obtain ⟨i, _, rfl⟩ := hk
      simp only [Path.at, vsym, ssym, TSym.mk', h2 hl]
  · rw [if_neg hl]
    exact ⟨fun h => ⟨h, fun h' => absurd h' hl⟩, fun h => h.1⟩

/-- The names of the shocks that get a variable. -/
def lagged (lag : String → Int) (shocks : List String) : List String := shocks.filter (fun s => 0 < (lag s).natAbs)

theorem shockFold_vars (ord : List (TSym × TSym) → List (TSym × TSym)) (lag : String → Int) (shocks : List String) (st : PState K) :
    (shocks.foldl (shockStep ord lag) st).vars = st.vars ++ (lagged lag shocks).map varOf := by
  induction shocks generalizing st with
  | nil => simp [lagged]
  | cons s ss ih =>
    simp only [List.foldl_cons, ih, lagged, List.filter_cons]
    by_cases hl : (lag s).natAbs > 0
    · have : decide (0 < (lag s).natAbs) = true := by simpa using hl
      simp [shockStep, hl, this]
    · have : decide (0 < (lag s).natAbs) = false := by simpa using hl
      simp [shockStep, hl, this]

theorem shockFold_length (ord : List (TSym × TSym) → List (TSym × TSym)) (lag : String → Int) (shocks : List String) (st : PState K) :
    (shocks.foldl (shockStep ord lag) st).eqs.length = st.eqs.length + (lagged lag shocks).length := by
  induction shocks generalizing st with
  | nil => simp [lagged]
  | cons s ss ih =>
    simp only [List.foldl_cons, ih, lagged, List.filter_cons]
    by_cases hl : (lag s).natAbs > 0
    · have : decide (0 < (lag s).natAbs) = true := by simpa using hl
      simp [shockStep, hl, this]; omega
    · have : decide (0 < (lag s).natAbs) = false := by simpa using hl
      simp [shockStep, hl, this]

theorem shockFold_solves (I : Interp K) (ord : List (TSym × TSym) → List (TSym × TSym)) (ho : IsOrder ord)
    (lag : String → Int) (shocks : List String) (st : PState K) (p : Path K) :
    Solves I (shocks.foldl (shockStep ord lag) st).eqs p ↔
      Solves I st.eqs p ∧ ∀ s ∈ lagged lag shocks, ∀ t, p .variable (varOf s) t = p .shock s t := by
  induction shocks generalizing st with
  | nil => simp [lagged]
  | cons s ss ih =>
    simp only [List.foldl_cons, ih, shockStep_solves I ord ho, lagged, List.mem_filter, List.mem_cons, decide_eq_true_eq]
    constructor
    · rintro ⟨⟨h1, h2⟩, h3⟩
      refine ⟨h1, ?_⟩
      rintro s' ⟨rfl | hs, hl⟩
      · exact h2 hl
      · exact h3 s' ⟨hs, hl⟩
    · rintro ⟨h1, h2⟩
      exact ⟨⟨h1, fun hl => h2 s ⟨Or.inl rfl, hl⟩⟩, fun s' hs => h2 s' ⟨Or.inr hs.1, hs.2⟩⟩

/-- Symbols after the shock stage: those of before that are not replaced, or a variable of a lagged shock, or the shock itself. -/
theorem shockFold_syms (ord : List (TSym × TSym) → List (TSym × TSym)) (ho : IsOrder ord) (lag : String → Int)
    (shocks : List String) (st : PState K) :
    ∀ e ∈ (shocks.foldl (shockStep ord lag) st).eqs, ∀ s ∈ e.syms,
      (∃ e' ∈ st.eqs, s ∈ e'.syms) ∨ (∃ n ∈ lagged lag shocks, ∃ d : Int, d ≤ 0 ∧ s = vsym (varOf n) d) ∨
        (∃ n ∈ lagged lag shocks, s = ssym n) := by
  induction shocks generalizing st with
  | nil => intro e he s hs; exact Or.inl ⟨e, he, hs⟩
  | cons n ss ih =>
    intro e he s hs
    have hsub : ∀ m ∈ lagged lag ss, m ∈ lagged lag (n :: ss) := by
      intro m hm; simp only [lagged, List.mem_filter, List.mem_cons] at hm ⊢; exact ⟨Or.inr hm.1, hm.2⟩
    rw [List.foldl_cons] at he
    rcases ih _ e he s hs with ⟨e', he', hs'⟩ | ⟨m, hm, d, hd, rfl⟩ | ⟨m, hm, rfl⟩
    · unfold shockStep at he'
      by_cases hl : (lag n).natAbs > 0
      · have hn : n ∈ lagged lag (n :: ss) := by simp [lagged]; omega
        rw [if_pos hl] at he'
        obtain ⟨e0, he0, rfl⟩ := List.mem_map.1 he'
        have hsep : ∀ kv ∈ ord (shockDict n (lag n).natAbs), ∀ kv' ∈ ord (shockDict n (lag n).natAbs), kv.2 ≠ kv'.1 := by
          intro kv hk kv' hk'
          exact shockDict_sep _ _ _ ((ho _).mem_iff.1 hk) _ ((ho _).mem_iff.1 hk')
        rcases Eqn.syms_subs _ _ hsep s hs' with ⟨kv, hk, rfl⟩ | ⟨hs0, _⟩
        · rw [(ho _).mem_iff, shockDict, List.mem_map] at hk
          obtain ⟨i, _, rfl⟩ := hk
          exact Or.inr (Or.inl ⟨n, hn, _, by omega, rfl⟩)
        · rcases List.mem_append.1 he0 with he0 | he0
          · exact Or.inl ⟨e0, he0, hs0⟩
          · simp only [List.mem_singleton] at he0
            subst he0
            simp only [Eqn.syms, Expr.syms, List.mem_append, List.mem_singleton] at hs0
            rcases hs0 with rfl | rfl
            · exact Or.inr (Or.inl ⟨n, hn, 0, le_refl _, rfl⟩)
            · exact Or.inr (Or.inr ⟨n, hn, rfl⟩)
      · rw [if_neg hl] at he'
        exact Or.inl ⟨e', he', hs'⟩
    · exact Or.inr (Or.inl ⟨m, hsub m hm, d, hd, rfl⟩)
    · exact Or.inr (Or.inr ⟨m, hsub m hm, rfl⟩)

/-- Lag variables are lags. -/
def LagMeaning (vars : List String) (n : String → Nat) (p : Path K) : Prop :=
  ∀ v ∈ vars, ∀ j, j + 1 < n v → ∀ t, p .variable (lagVar v (j + 1)) t = p .variable v (t - ((j : Int) + 1))

/-- Lead variables are next period's values: all of them. -/
def LeadMeaning (vars : List String) (k : String → Nat) (p : Path K) : Prop :=
  ∀ v ∈ vars, ∀ j, j + 1 < k v → ∀ t, p .variable (leadVar v (j + 1)) t = p .variable v (t + 1)

theorem lagEqs_solves (I : Interp K) (v : String) (n : Nat) (p : Path K) :
    Solves I (lagEqs v n) p ↔ ∀ j, j + 1 < n → ∀ t, p .variable (lagVar v (j + 1)) t = p .variable v (t - ((j : Int) + 1)) := by
  have h0 : Solves I (lagEqs v n) p ↔ ∀ j, j + 1 < n → ∀ t, p .variable (lagVar v (j + 1)) t = p.at t (lagRhs v (j + 1)) := by
    simp only [Solves, lagEqs, List.mem_map, List.mem_range, forall_exists_index, and_imp, forall_apply_eq_imp_iff₂, Holds,
      Expr.eval, Path.at, vsym, TSym.mk', add_zero]
    exact forall_congr' fun j => ⟨fun h hj => h (by omega), fun h hj => h (by omega)⟩
  rw [h0]
  constructor
  · intro h j
    induction j with
    | zero =>
      intro hj t
      rw [h 0 hj t]
      simp only [lagRhs, Path.at, zero_add, if_true, vsym, TSym.mk']
      congr 1
    | succ j ih =>
      intro hj t
      rw [h (j + 1) hj t]
      simp only [lagRhs, Path.at, show j + 1 + 1 ≠ 1 by omega, if_false, vsym, TSym.mk', Nat.add_sub_cancel]
      rw [ih (by omega)]
      congr 1; push_cast; ring
  · intro h j hj t
    rw [h j hj t]
    cases j with
    | zero =>
      simp only [lagRhs, Path.at, zero_add, if_true, vsym, TSym.mk']
      congr 1
    | succ j =>
      simp only [lagRhs, Path.at, show j + 1 + 1 ≠ 1 by omega, if_false, vsym, TSym.mk', Nat.add_sub_cancel]
      rw [h j (by omega)]
      congr 1; push_cast; ring

theorem leadEqs_solves (I : Interp K) (v : String) (k : Nat) (p : Path K) :
    Solves I (leadEqs v k) p ↔ ∀ j, j + 1 < k → ∀ t, p .variable (leadVar v (j + 1)) t = p .variable v (t + 1) := by
  simp only [Solves, leadEqs, List.mem_map, List.mem_range, forall_exists_index, and_imp, forall_apply_eq_imp_iff₂, Holds,
    Expr.eval, Path.at, vsym, TSym.mk', add_zero]
  exact forall_congr' fun j => ⟨fun h hj => h (by omega), fun h hj => h (by omega)⟩

theorem solves_flatMap (I : Interp K) (vars : List String) (f : String → List (Eqn K)) (p : Path K) :
    Solves I (vars.flatMap f) p ↔ ∀ v ∈ vars, Solves I (f v) p := by
  simp only [Solves, List.mem_flatMap, forall_exists_index, and_imp]
  exact ⟨fun h v hv e he => h e v hv he, fun h e v hv he => h v hv e he⟩

/-- The dictionary of the endogenous stage. -/
def endoDict (vars : List String) (n k : String → Nat) : List (TSym × TSym) :=
  vars.flatMap (fun v => lagDict v (n v) ++ leadDict v (k v))

/-- The equations that define the added variables. -/
def endoEqs (vars : List String) (n k : String → Nat) : List (Eqn K) :=
  vars.flatMap (fun v => lagEqs v (n v) ++ leadEqs v (k v))

theorem mem_endoDict (vars : List String) (n k : String → Nat) (kv : TSym × TSym) :
    kv ∈ endoDict vars n k ↔ ∃ v ∈ vars,
      (∃ j : Nat, j + 1 < n v ∧ kv = (vsym v (-((j : Int) + 2)), vsym (lagVar v (j + 1)) (-1))) ∨
      (∃ j : Nat, j + 1 < k v ∧ kv = (vsym v ((j : Int) + 2), vsym (leadVar v (j + 1)) 1)) := by
  simp only [endoDict, lagDict, leadDict, List.mem_flatMap, List.mem_append, List.mem_map, List.mem_range]
  constructor
  · rintro ⟨v, hv, ⟨j, hj, rfl⟩ | ⟨j, hj, rfl⟩⟩
    · exact ⟨v, hv, Or.inl ⟨j, by omega, rfl⟩⟩
    · exact ⟨v, hv, Or.inr ⟨j, by omega, rfl⟩⟩
  · rintro ⟨v, hv, ⟨j, hj, rfl⟩ | ⟨j, hj, rfl⟩⟩
    · exact ⟨v, hv, Or.inl ⟨j, by omega, rfl⟩⟩
    · exact ⟨v, hv, Or.inr ⟨j, by omega, rfl⟩⟩

theorem endoDict_sep (vars : List String) (n k : String → Nat) :
    ∀ kv ∈ endoDict vars n k, ∀ kv' ∈ endoDict vars n k, kv.2 ≠ kv'.1 := by
  intro kv hk kv' hk'
  rw [mem_endoDict] at hk hk'
  obtain ⟨v, _, ⟨j, _, rfl⟩ | ⟨j, _, rfl⟩⟩ := hk <;> obtain ⟨w, _, ⟨i, _, rfl⟩ | ⟨i, _, rfl⟩⟩ := hk' <;>
    (intro h; have := (vsym_inj.1 h).2; omega)

theorem mem_endoEqs_dates (vars : List String) (n k : String → Nat) (e : Eqn K) (he : e ∈ endoEqs (K := K) vars n k) :
    ∀ s ∈ e.syms, s.kind = .variable ∧ s.expDate = 0 ∧ -1 ≤ s.date ∧ s.date ≤ 1 := by
  simp only [endoEqs, lagEqs, leadEqs, List.mem_flatMap, List.mem_append, List.mem_map, List.mem_range] at he
  obtain ⟨v, _, ⟨j, _, rfl⟩ | ⟨j, _, rfl⟩⟩ := he
  · intro s hs
    simp only [Eqn.syms, Expr.syms, List.mem_append, List.mem_singleton] at hs
    rcases hs with rfl | rfl
    · simp [vsym, TSym.mk']
    · simp only [lagRhs]; split <;> simp [vsym, TSym.mk']
  · intro s hs
    simp only [Eqn.syms, Expr.syms, List.mem_append, List.mem_singleton] at hs
    rcases hs with rfl | rfl <;> simp [vsym, TSym.mk']

theorem endoEqs_subs (ord : List (TSym × TSym) → List (TSym × TSym)) (ho : IsOrder ord) (vars : List String) (n k : String → Nat) :
    (endoEqs (K := K) vars n k).map (Eqn.subs (ord (endoDict vars n k))) = endoEqs vars n k := by
  conv_rhs => rw [← List.map_id (endoEqs (K := K) vars n k)]
  refine List.map_congr_left fun e he => ?_
  refine Eqn.subs_of_not_mem _ _ ?_
  intro kv hk hs
  have hd := mem_endoEqs_dates vars n k e he _ hs
  rw [(ho _).mem_iff, mem_endoDict] at hk
  obtain ⟨v, _, ⟨j, _, rfl⟩ | ⟨j, _, rfl⟩⟩ := hk
  · have := hd.2.2.1; simp only [vsym, TSym.mk'] at this; omega
  · have := hd.2.2.2; simp only [vsym, TSym.mk'] at this; omega

/-- The endogenous stage: the new system says what the old one says, and what the added variables stand for. -/
theorem endo_solves (I : Interp K) (ord : List (TSym × TSym) → List (TSym × TSym)) (ho : IsOrder ord) (vars : List String)
    (n k : String → Nat) (eqs : List (Eqn K)) (hlead : LeadsAtMost 2 eqs) (p : Path K) :
    Solves I ((eqs ++ endoEqs vars n k).map (Eqn.subs (ord (endoDict vars n k)))) p ↔
      Solves I eqs p ∧ LagMeaning vars n p ∧ LeadMeaning vars k p := by
  rw [List.map_append, solves_append, endoEqs_subs ord ho]
  have hnew : Solves I (endoEqs (K := K) vars n k) p ↔ LagMeaning vars n p ∧ LeadMeaning vars k p := by
    unfold endoEqs LagMeaning LeadMeaning
    rw [solves_flatMap]
    simp only [solves_append, lagEqs_solves, leadEqs_solves]
    exact ⟨fun h => ⟨fun v hv => (h v hv).1, fun v hv => (h v hv).2⟩, fun h v hv => ⟨h.1 v hv, h.2 v hv⟩⟩
  rw [hnew]
  refine and_congr_left fun ⟨hlag, hld⟩ => ?_
  have hsep : ∀ kv ∈ ord (endoDict vars n k), ∀ kv' ∈ ord (endoDict vars n k), kv.2 ≠ kv'.1 := by
    intro kv hk kv' hk'
    exact endoDict_sep _ _ _ _ ((ho _).mem_iff.1 hk) _ ((ho _).mem_iff.1 hk')
  have hall : ∀ e ∈ eqs, Holds I p (e.subs (ord (endoDict vars n k))) ↔ Holds I p e := by
    intro e he
    refine Eqn.holds_subs I p _ e hsep ?_
    intro kv hk hs t
    rw [(ho _).mem_iff, mem_endoDict] at hk
    obtain ⟨v, hv, ⟨j, hj, rfl⟩ | ⟨j, hj, rfl⟩⟩ := hk
    · simp only [Path.at, vsym, TSym.mk']
      rw [hlag v hv j hj]
      congr 1; ring
    · have h2 := hlead e he _ hs rfl
      simp only [vsym, TSym.mk'] at h2
      have hj0 : j = 0 := by omega
      subst hj0
      simp only [Path.at, vsym, TSym.mk']
      rw [hld v hv 0 hj]
      congr 1; push_cast; ring
  constructor
  · intro h e he
    exact (hall e he).1 (h _ (List.mem_map_of_mem he))
  · intro h e he
    obtain ⟨e0, he0, rfl⟩ := List.mem_map.1 he
    exact (hall e0 he0).2 (h e0 he0)

end Parser
end Pydsge
