import Verif.Props.TimeCons
import Verif.Examples.Ex1Run
import Verif.Examples.Ex5
import Mathlib.Tactic.Linarith

/-!
# C116: a case that meets the hypotheses, and a case in which expectations do not come true
-/

set_option autoImplicit false
set_option linter.unusedSimpArgs false
set_option linter.unusedSectionVars false

namespace Pydsge

open Matrix Pydsge.Engine Pydsge.Spec Pydsge.Tools Pydsge.GenSys

/-! ## The model of `Ex1` -/

namespace Ex1

variable {lMax kMax : Nat} {sched : Nat → List Nat} {mod : Model (Fin 1) (Fin 1) (Fin 1) (Fin 1) Rat}

theorem val_y (st : Fin 1 ⊕ Fin 1 → Rat) : lay.val st (.inl 0) = st (.inr 0) := lay.val_z st 0
theorem val_r (st : Fin 1 ⊕ Fin 1 → Rat) : lay.val st (.inl 1) = st (.inl 0) := lay.val_p st 0

theorem lag_y (st : Fin 1 ⊕ Fin 1 → Rat) : lagVal lay st 0 = st (.inr 0) := by
  unfold lagVal
  rw [if_neg (not_inall 0), val_y]

theorem notional_y (xlag : Fin 2 → Rat) (eps : Fin 1 → Rat) (X : Nat → Fin 1 ⊕ Fin 1 → Rat) (s : Nat) :
    notional decl xlag eps (Spec.declared lay X) s = X s (.inr 0) := by
  simp [notional, declB, Spec.declared, dotProduct, Fin.sum_univ_two]
  exact val_y _

/-- What is known about expected paths of this model. -/
structure Facts (l k : Nat) (st : Fin 1 ⊕ Fin 1 → Rat) (eps : Fin 1 → Rat) (X : Nat → Fin 1 ⊕ Fin 1 → Rat) : Prop where
  eq0 : X 0 (.inr 0) = 3/4 * st (.inr 0) - X 1 (.inl 0) + eps 0
  eq : ∀ s, X (s + 1) (.inr 0) = 3/4 * X s (.inr 0) - X (s + 2) (.inl 0)
  slack : ∀ s, ¬ BindsAt l k s → X s (.inl 0) = X s (.inr 0)
  bind : ∀ s, BindsAt l k s → X s (.inl 0) = -1
  lin0 : k = 0 → X 0 (.inr 0) = 1/2 * st (.inr 0) + 2/3 * eps 0
  lin : ∀ s, (k = 0 ∨ l + k ≤ s + 1) → X (s + 1) (.inr 0) = 1/2 * X s (.inr 0)

theorem facts (h : Succeeded lay orc lMax kMax sched mod) {l k : Nat} (hl : l ≤ lMax) (hk : k ≤ kMax) {st : Fin 1 ⊕ Fin 1 → Rat}
    {eps : Fin 1 → Rat} {X : Nat → Fin 1 ⊕ Fin 1 → Rat} (hX : ExpectedPath mod l k st eps X) : Facts l k st eps X := by
  have hsol := C01_expected_paths_solve_declared_model h rfl (by simp [declB]) (.inr rfl) hl hk st eps X hX
  obtain ⟨c, hm⟩ := genSys_ok h.perm h.gen
  have hkl := hm.kl
  simp only [orc, Except.ok.injEq, Prod.mk.injEq] at hkl
  generalize hx : (fun s v => lay.val (X s) (.inl v)) = x at hsol
  have hy : ∀ s, x s 0 = X s (.inr 0) := fun s => by rw [← hx]; exact val_y _
  have hr : ∀ s, x s 1 = X s (.inl 0) := fun s => by rw [← hx]; exact val_r _
  generalize hxl : lagVal lay st = xl at hsol
  have hyl : xl 0 = st (.inr 0) := by rw [← hxl]; exact lag_y _
  have hnot : ∀ s, notional decl xl eps x s = x s 0 := by
    intro s
    simp [notional, declB, dotProduct, Fin.sum_univ_two]
  have heq : ∀ s, x (s + 1) 1 + x s 0 - 3/4 * prev xl x s 0 - shockAt eps s 0 = 0 := by
    intro s
    have := congrFun (hsol.eqs s) 0
    simp [declB, mulVec, dotProduct, Fin.sum_univ_two] at this
    linarith
  have hlin : ∀ s, (elapsed l k s).2 = 0 → X s (.inr 0) = 1/2 * (prev st X s) (.inr 0) + 2/3 * shockAt eps s 0 := by
    intro s hs
    obtain ⟨r, h1, h2⟩ := hX s
    obtain ⟨r', h3, h4⟩ := (C08_linear_solution_everywhere h (prev st X s) (shockAt eps s) (elapsed_le hl hk s).1).2.1
    rw [show elapsed l k s = ((elapsed l k s).1, 0) from Prod.ext rfl hs] at h1
    have : r = r' := Except.ok.inj (h1.symm.trans h3)
    rw [h2, this, h4, ← hkl.2]
    simp [mulVec, dotProduct, Fintype.sum_sum_type, lam, q0Of]
  refine ⟨?_, ?_, ?_, ?_, ?_, ?_⟩
  · have := heq 0
    simp only [prev, shockAt, hyl, hy, hr, Nat.zero_add] at this
    linarith
  · intro s
    have := heq (s + 1)
    simp only [prev, shockAt, hy, hr, Pi.zero_apply] at this
    linarith
  · intro s hs
    have := hsol.slack s hs
    rw [hnot, hy] at this
    rw [← hr]
    exact this
  · intro s hs
    rw [← hr]
    exact hsol.binding s hs
  · intro hk0
    have := hlin 0 (by rw [elapsed_zero]; exact hk0)
    simpa [prev, shockAt] using this
  · intro s hs
    have := hlin (s + 1) (by unfold elapsed; split_ifs <;> simp only <;> omega)
    simpa [prev, shockAt] using this

theorem lag_bound : (decl).xbar = -1 := rfl

/-- The path that is expected after a shock of `-4` from the steady state, if the constraint binds for two periods. -/
theorem path02 (h : Succeeded lay orc 1 2 sched mod) {X : Nat → Fin 1 ⊕ Fin 1 → Rat} (hX : ExpectedPath mod 0 2 0 (fun _ => -4) X) :
    X 0 (.inr 0) = -3 ∧ ∀ s, X (s + 1) (.inr 0) = 1/2 * X s (.inr 0) := by
  have f := facts h (by omega) le_rfl hX
  have e0 := f.eq0
  have e1 := f.eq 0
  have b1 := f.bind 1 (by decide)
  have s2 := f.slack 2 (by decide)
  have l1 := f.lin 1 (.inr le_rfl)
  simp only [Pi.zero_apply, Nat.zero_add, Nat.reduceAdd] at e0 e1 l1
  refine ⟨by linarith, fun s => ?_⟩
  cases s with
  | zero => simp only [Nat.zero_add]; linarith
  | succ s => exact f.lin (s + 1) (.inr (by omega))

/-- Which spells pass the tests from lagged `y = -3` without a shock. -/
theorem no_rival (h : Succeeded lay orc 1 2 sched mod) {st : Fin 1 ⊕ Fin 1 → Rat} (hst : st (.inr 0) = -3) :
    Spec.NoRival lay mod 1 2 st 0 0 1 := by
  intro l k Y hl hk hY hf
  have g := facts h hl hk hY
  have e0 := g.eq0
  have e1 := g.eq 0
  simp only [hst, Pi.zero_apply, Nat.zero_add] at e0 e1
  rcases hf with ⟨rfl, hf⟩ | ⟨hk1, hf1, hf2, hf3, hf4, hf5⟩
  · exfalso
    have h1 := hf 0 (by omega)
    rw [notional_y, lag_bound] at h1
    have h2 := g.lin0 rfl
    simp only [hst, Pi.zero_apply] at h2
    linarith
  · simp only [notional_y, lag_bound] at hf1 hf2 hf3 hf4 hf5
    by_cases hl0 : l = 0
    · subst hl0
      by_cases hk2 : k = 2
      · exfalso
        subst hk2
        have h1 := hf4 le_rfl
        have b1 := g.bind 1 (by decide)
        have s2 := g.slack 2 (by decide)
        have l1 := g.lin 1 (.inr le_rfl)
        simp only [Nat.reduceAdd, Nat.zero_add, Nat.reduceSub] at l1 h1
        linarith
      · omega
    · exfalso
      obtain rfl : l = 1 := by omega
      have h1 := hf1 le_rfl
      have b1 := g.bind 1 ⟨le_rfl, by omega⟩
      linarith

/-- The search finds that spell. -/
theorem found02 (h : Succeeded lay orc 1 2 sched mod) {X : Nat → Fin 1 ⊕ Fin 1 → Rat} (hX : ExpectedPath mod 0 2 0 (fun _ => -4) X) :
    tFunc mod 0 (fun _ => -4) .none false = .ok ⟨X 0, 0, 2, 0⟩ ∧
      Spec.Satisfies decl (lagVal lay (0 : Fin 1 ⊕ Fin 1 → Rat)) (fun _ => -4) (Spec.declared lay X) 0 2 := by
  obtain ⟨h0, h1⟩ := path02 h hX
  have hv1 := h1 0
  have hv2 := h1 1
  simp only [Nat.zero_add, Nat.reduceAdd] at hv1 hv2
  have hs : Spec.Satisfies decl (lagVal lay (0 : Fin 1 ⊕ Fin 1 → Rat)) (fun _ => -4) (Spec.declared lay X) 0 2 := by
    refine ⟨by omega, fun s hs => ?_, fun s hs => ?_⟩ <;> rw [notional_y, lag_bound]
    · have : s = 0 ∨ s = 1 := by unfold BindsAt at hs; omega
      rcases this with rfl | rfl <;> linarith
    · have key : ∀ n, -1 < X (n + 2) (.inr 0) ∧ X (n + 2) (.inr 0) ≤ 0 := by
        intro n
        induction n with
        | zero => simp only [Nat.zero_add]; constructor <;> linarith
        | succ n ih =>
          have := h1 (n + 2)
          rw [show n + 1 + 2 = n + 2 + 1 by omega]
          constructor <;> linarith [ih.1, ih.2]
      obtain ⟨n, rfl⟩ : ∃ n, s = n + 2 := ⟨s - 2, by omega⟩
      exact (key n).1
  refine ⟨?_, hs⟩
  refine finds h (by omega) (by omega) rfl rfl (by omega) le_rfl hX hs (fun _ => ?_) (by omega)
  intro l k Y hl hk hY hf
  have g := facts h hl hk hY
  have e0 := g.eq0
  simp only [Pi.zero_apply] at e0
  rcases hf with ⟨rfl, hf⟩ | ⟨hk1, hf1, hf2, hf3, hf4, hf5⟩
  · exfalso
    have h1 := hf 0 (by omega)
    rw [notional_y, lag_bound] at h1
    have h2 := g.lin0 rfl
    simp only [Pi.zero_apply] at h2
    linarith
  · simp only [notional_y, lag_bound] at hf1 hf2 hf3 hf4 hf5
    by_cases hl0 : l = 0
    · subst hl0
      by_cases hk2 : k = 1
      · exfalso
        subst hk2
        have s1 := g.slack 1 (by decide)
        have l1 := g.lin 0 (.inr le_rfl)
        simp only [Nat.zero_add] at l1 hf5
        linarith
      · omega
    · exfalso
      obtain rfl : l = 1 := by omega
      have h1 := hf1 le_rfl
      have b1 := g.bind 1 ⟨le_rfl, by omega⟩
      linarith

end Ex1

/-! ## The oscillating model -/

namespace Ex5

variable {lMax kMax : Nat} {sched : Nat → List Nat} {mod : Model (Fin 1) (Fin 1) (Fin 1) (Fin 1) Rat}

theorem val_y (st : Fin 1 ⊕ Fin 1 → Rat) : lay.val st (.inl 0) = st (.inr 0) := lay.val_z st 0
theorem val_r (st : Fin 1 ⊕ Fin 1 → Rat) : lay.val st (.inl 1) = st (.inl 0) := lay.val_p st 0

theorem lag_y (st : Fin 1 ⊕ Fin 1 → Rat) : lagVal lay st 0 = st (.inr 0) := by
  unfold lagVal
  rw [if_neg (not_inall 0), val_y]

theorem notional_y (xlag : Fin 2 → Rat) (eps : Fin 1 → Rat) (X : Nat → Fin 1 ⊕ Fin 1 → Rat) (s : Nat) :
    notional decl xlag eps (Spec.declared lay X) s = X s (.inr 0) := by
  simp [notional, declB, Spec.declared, dotProduct, Fin.sum_univ_two]
  exact val_y _

/-- What is known about expected paths of this model. -/
structure Facts (l k : Nat) (st : Fin 1 ⊕ Fin 1 → Rat) (eps : Fin 1 → Rat) (X : Nat → Fin 1 ⊕ Fin 1 → Rat) : Prop where
  eq0 : X 0 (.inr 0) = -3/8 * st (.inr 0) - 1/2 * X 1 (.inl 0) + eps 0
  eq : ∀ s, X (s + 1) (.inr 0) = -3/8 * X s (.inr 0) - 1/2 * X (s + 2) (.inl 0)
  slack : ∀ s, ¬ BindsAt l k s → X s (.inl 0) = X s (.inr 0)
  bind : ∀ s, BindsAt l k s → X s (.inl 0) = -1
  lin0 : k = 0 → X 0 (.inr 0) = -1/2 * st (.inr 0) + 4/3 * eps 0
  lin : ∀ s, (k = 0 ∨ l + k ≤ s + 1) → X (s + 1) (.inr 0) = -1/2 * X s (.inr 0)

theorem facts (h : Succeeded lay orc lMax kMax sched mod) {l k : Nat} (hl : l ≤ lMax) (hk : k ≤ kMax) {st : Fin 1 ⊕ Fin 1 → Rat}
    {eps : Fin 1 → Rat} {X : Nat → Fin 1 ⊕ Fin 1 → Rat} (hX : ExpectedPath mod l k st eps X) : Facts l k st eps X := by
  have hsol := C01_expected_paths_solve_declared_model h rfl (by simp [declB]) (.inr rfl) hl hk st eps X hX
  obtain ⟨c, hm⟩ := genSys_ok h.perm h.gen
  have hkl := hm.kl
  simp only [orc, Except.ok.injEq, Prod.mk.injEq] at hkl
  generalize hx : (fun s v => lay.val (X s) (.inl v)) = x at hsol
  have hy : ∀ s, x s 0 = X s (.inr 0) := fun s => by rw [← hx]; exact val_y _
  have hr : ∀ s, x s 1 = X s (.inl 0) := fun s => by rw [← hx]; exact val_r _
  generalize hxl : lagVal lay st = xl at hsol
  have hyl : xl 0 = st (.inr 0) := by rw [← hxl]; exact lag_y _
  have hnot : ∀ s, notional decl xl eps x s = x s 0 := by
    intro s
    simp [notional, declB, dotProduct, Fin.sum_univ_two]
  have heq : ∀ s, x (s + 1) 1 / 2 + x s 0 + 3/8 * prev xl x s 0 - shockAt eps s 0 = 0 := by
    intro s
    have := congrFun (hsol.eqs s) 0
    simp [declB, mulVec, dotProduct, Fin.sum_univ_two] at this
    linarith
  have hlin : ∀ s, (elapsed l k s).2 = 0 → X s (.inr 0) = -1/2 * (prev st X s) (.inr 0) + 4/3 * shockAt eps s 0 := by
    intro s hs
    obtain ⟨r, h1, h2⟩ := hX s
    obtain ⟨r', h3, h4⟩ := (C08_linear_solution_everywhere h (prev st X s) (shockAt eps s) (elapsed_le hl hk s).1).2.1
    rw [show elapsed l k s = ((elapsed l k s).1, 0) from Prod.ext rfl hs] at h1
    have : r = r' := Except.ok.inj (h1.symm.trans h3)
    rw [h2, this, h4, ← hkl.2]
    simp [mulVec, dotProduct, Fintype.sum_sum_type, lam, q0Of]
  refine ⟨?_, ?_, ?_, ?_, ?_, ?_⟩
  · have := heq 0
    simp only [prev, shockAt, hyl, hy, hr, Nat.zero_add] at this
    linarith
  · intro s
    have := heq (s + 1)
    simp only [prev, shockAt, hy, hr, Pi.zero_apply] at this
    linarith
  · intro s hs
    have := hsol.slack s hs
    rw [hnot, hy] at this
    rw [← hr]
    exact this
  · intro s hs
    rw [← hr]
    exact hsol.binding s hs
  · intro hk0
    have := hlin 0 (by rw [elapsed_zero]; exact hk0)
    simpa [prev, shockAt] using this
  · intro s hs
    have := hlin (s + 1) (by unfold elapsed; split_ifs <;> simp only <;> omega)
    simpa [prev, shockAt] using this

/-- The search after a shock of `19/2` from the steady state: the constraint is expected to bind one period later, for one period. -/
theorem osc_found (h : Succeeded lay orc lMax kMax sched mod) (hl : 1 ≤ lMax) (hk : 1 ≤ kMax) (hL : lMax + 1 ≤ 999)
    {X : Nat → Fin 1 ⊕ Fin 1 → Rat} (hX : ExpectedPath mod 1 1 0 (fun _ => 19/2) X) :
    tFunc mod 0 (fun _ => 19/2) .none false = .ok ⟨X 0, 1, 1, 0⟩ ∧ X 3 (.inl 0) = -5/4 := by
  have f := facts h hl hk hX
  have e0 := f.eq0
  have b1 := f.bind 1 (by decide)
  have l1 := f.lin 1 (.inr le_rfl)
  have e1 := f.eq 0
  have s2 := f.slack 2 (by decide)
  have l2 := f.lin 2 (.inr (by omega))
  have s3 := f.slack 3 (by decide)
  simp only [Pi.zero_apply, Nat.zero_add, Nat.reduceAdd] at e0 e1 l1 l2
  constructor
  · refine search_declared h hk hL rfl rfl hl hk hX ?_ ?_ (by omega)
    · right
      simp only [notional_y, Nat.reduceAdd]
      refine ⟨le_rfl, fun _ => ?_, by omega, ?_, by omega, ?_⟩ <;> show _ ≤ _ <;> simp only [declB] <;> linarith
    · intro l' k' Y hl' hk' h00 hY hf
      have g := facts h hl' hk' hY
      by_cases hk0 : k' = 0
      · subst hk0
        obtain rfl := h00 rfl
        exfalso
        rcases hf with ⟨_, hf⟩ | ⟨hf, _⟩
        · have h1 := hf 1 (by omega)
          rw [notional_y] at h1
          have h2 := g.lin0 rfl
          have h3 := g.lin 0 (.inl rfl)
          simp only [Pi.zero_apply, Nat.zero_add] at h2 h3
          have h4 : (decl).xbar = -1 := rfl
          rw [h4] at h1
          linarith
        · omega
      · by_cases hl0 : l' = 0
        · subst hl0
          exfalso
          rcases hf with ⟨hf, _⟩ | ⟨_, _, _, hf, _⟩
          · omega
          · rw [notional_y] at hf
            have h4 : (decl).xbar = -1 := rfl
            rw [h4] at hf
            have h2 := g.eq0
            simp only [Pi.zero_apply] at h2
            by_cases h1 : k' = 1
            · subst h1
              have h5 := g.slack 1 (by decide)
              have h6 := g.lin 0 (.inr le_rfl)
              simp only [Nat.zero_add] at h6
              linarith
            · have h5 := g.bind 1 ⟨by omega, by omega⟩
              linarith
        · unfold LexLt
          simp only
          omega
  · linarith

end Ex5

theorem shkVec_single (x : Rat) (t : Nat) : shkVec [((0 : Fin 1), x, (0 : Int))] t = shockAt (fun _ => x) t := by
  cases t with
  | zero =>
    funext e
    obtain rfl : e = 0 := Subsingleton.elim _ _
    simp [shkVec, shockAt]
  | succ t =>
    unfold shkVec shockAt
    rw [List.foldl_cons, List.foldl_nil, if_neg]
    simp only
    omega

/-- **C116**: the hypotheses are met with a spell of two periods. -/
theorem C116_hypotheses_met {sched : Nat → List Nat} {mod : Model (Fin 1) (Fin 1) (Fin 1) (Fin 1) Rat}
    (h : Succeeded Ex1.lay Ex1.orc 1 2 sched mod) :
    ∃ r X, tFunc mod 0 (fun _ => -4) .none false = .ok r ∧ r.flag = 0 ∧ r.l = 0 ∧ r.k = 2 ∧
      ExpectedPath mod r.l r.k 0 (fun _ => -4) X ∧
      Spec.Satisfies Ex1.decl (lagVal Ex1.lay (0 : Fin 1 ⊕ Fin 1 → Rat)) (fun _ => -4) (Spec.declared Ex1.lay X) r.l r.k ∧
      (∀ t, t + 1 < r.l + r.k → Spec.NoRival Ex1.lay mod 1 2 (X t) 0 (elapsed r.l r.k (t + 1)).1 (elapsed r.l r.k (t + 1)).2) ∧
      ∀ T, ∃ xs, irfs mod ⟨[(0, -4, 0)], .none, false, false⟩ 0 T = .ok xs ∧
        ∀ (t : Nat) s, xs[t]? = some s → s.state = X t ∧ s.state (.inr 0) = -3 * (1/2) ^ t := by
  obtain ⟨c, hm⟩ := genSys_ok h.perm h.gen
  have hX : ExpectedPath mod 0 2 0 (fun _ => -4) (xPath c 0 2 (q0Of 0 fun _ => -4)) :=
    (expectedPath_iff hm h.orc h.noTiny h.square h.states (noLagFwd_of_rc rfl) (Nat.zero_le 1) le_rfl 0 _ _).2 fun _ => rfl
  generalize xPath c 0 2 (q0Of 0 fun _ => -4) = X at hX
  obtain ⟨h1, h2⟩ := Ex1.found02 h hX
  obtain ⟨h3, h4⟩ := Ex1.path02 h hX
  have hriv : ∀ t, t + 1 < 0 + 2 → Spec.NoRival Ex1.lay mod 1 2 (X t) 0 (elapsed 0 2 (t + 1)).1 (elapsed 0 2 (t + 1)).2 := by
    intro t ht
    obtain rfl : t = 0 := by omega
    exact Ex1.no_rival h h3
  refine ⟨_, X, h1, rfl, rfl, rfl, hX, h2, hriv, fun T => ?_⟩
  obtain ⟨xs, g1, _, g2⟩ := C116_expectations_come_true_partial h (by omega) (by omega) rfl rfl 0 [((0 : Fin 1), -4, (0 : Int))] (fun _ => -4)
    (fun t => (shocksAt_iff _ _ _).2 (shkVec_single _ t).symm) h1 rfl hX h2 hriv T
  refine ⟨xs, g1, fun t s hs => ?_⟩
  obtain ⟨g3, _⟩ := g2 t s hs
  refine ⟨g3, ?_⟩
  rw [g3]
  have key : ∀ t, X t (.inr 0) = -3 * (1/2) ^ t := by
    intro t
    induction t with
    | zero => rw [h3]; norm_num
    | succ t ih => rw [h4, ih, pow_succ]; ring
  exact key t

/-- **C116** (fails in general): the search tests a spell in five periods only, so the path that is expected at impact can violate the
constraint later.  In an oscillating model the impulse response then leaves the path that was expected at impact although no new shock
hits, for all table sizes. -/
theorem C116_expectations_come_true_refuted {lMax kMax : Nat} {sched : Nat → List Nat} {mod : Model (Fin 1) (Fin 1) (Fin 1) (Fin 1) Rat}
    (h : Succeeded Ex5.lay Ex5.orc lMax kMax sched mod) (hl : 1 ≤ lMax) (hk : 1 ≤ kMax) (hL : lMax + 1 ≤ 999) :
    ∃ r X xs, tFunc mod 0 (fun _ => 19/2) .none false = .ok r ∧ r.flag = 0 ∧ ExpectedPath mod r.l r.k 0 (fun _ => 19/2) X ∧
      irfs mod ⟨[(0, 19/2, 0)], .none, false, false⟩ 0 4 = .ok xs ∧
      ∃ (t : Nat) (s : IrfState (Fin 1) (Fin 1) Rat), xs[t]? = some s ∧ s.state ≠ X t := by
  obtain ⟨c, hm⟩ := genSys_ok h.perm h.gen
  have hX : ExpectedPath mod 1 1 0 (fun _ => 19/2) (xPath c 1 1 (q0Of 0 fun _ => 19/2)) :=
    (expectedPath_iff hm h.orc h.noTiny h.square h.states (noLagFwd_of_rc rfl) hl hk 0 _ _).2 fun _ => rfl
  generalize xPath c 1 1 (q0Of 0 fun _ => 19/2) = X at hX
  obtain ⟨h1, h2⟩ := Ex5.osc_found h hl hk hL hX
  have hfb : (Ex5.inp').fb0 (Ex5.inp').cvar ≠ 0 := fb0_cvar_ne (D := Ex5.decl) (by simp [Ex5.declB])
  have hstep : ∀ t (s : IrfState (Fin 1) (Fin 1) Rat), ∃ s', irfStep mod ⟨[(0, 19/2, 0)], .none, false, false⟩ s t = .ok s' ∧
      -1 ≤ s'.state (.inl 0) := by
    intro t s
    obtain ⟨r, g1, g2⟩ := C02_never_below_bound h hk hfb s.state (shkVec [((0 : Fin 1), 19/2, (0 : Int))] t)
    rw [irfStep_free (.inl rfl), g1]
    refine ⟨_, rfl, ?_⟩
    have := g2
    rwa [show Ex5.lay.val r.state (.inl (Ex5.inp').cvar) = r.state (.inl 0) from Ex5.val_r _] at this
  obtain ⟨xs, hx⟩ := irfRun_exists (m := mod) (a := ⟨[((0 : Fin 1), 19/2, (0 : Int))], .none, false, false⟩) (fun _ _ => True)
    (fun t s _ => by obtain ⟨s', g, _⟩ := hstep t s; exact ⟨s', g, trivial⟩) 4 0 ⟨0, 0, 0, 0, false⟩ trivial
  obtain ⟨g1, g2⟩ := irfRun_steps hx
  refine ⟨_, X, xs, h1, rfl, hX, hx, 3, xs[3], List.getElem?_eq_getElem (by omega), fun he => ?_⟩
  have g3 := g2 3 xs[2] xs[3] (by rw [List.getElem?_cons_succ]; exact List.getElem?_eq_getElem (by omega))
    (List.getElem?_eq_getElem (by omega))
  obtain ⟨s', g4, g5⟩ := hstep 3 xs[2]
  rw [Nat.zero_add, g4] at g3
  cases g3
  rw [he, h2] at g5
  norm_num at g5

/-- The refutation is about a model that exists. -/
example : ∃ mod, Succeeded Ex5.lay Ex5.orc 3 17 (serial 17) mod := Ex5.succeeds 3 17 (Ex5.serial_perm 3 17)

end Pydsge
