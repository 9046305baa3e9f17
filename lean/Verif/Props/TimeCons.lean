import Verif.Props.Causal
import Verif.Props.Solution

/-!
# C116: without new shocks, expectations come true
-/

set_option autoImplicit false
set_option linter.unusedSectionVars false
set_option linter.unusedSimpArgs false

namespace Pydsge

open Matrix Pydsge.Engine Pydsge.Spec Pydsge.Tools Pydsge.GenSys

/-! ## Specification -/

namespace Spec

section
variable {E ν ε K : Type} [Fintype ν] [Fintype ε] [Field K] [LinearOrder K]

/-- Along the path, the constraint is slack before and after the spell `(l,k)`, and binds during the spell, in every period. -/
structure Satisfies (D : Declared E ν ε K) (xlag : ν → K) (eps : ε → K) (x : Nat → ν → K) (l k : Nat) : Prop where
  before : ∀ s < l, D.xbar ≤ notional D xlag eps x s
  during : ∀ s, BindsAt l k s → notional D xlag eps x s ≤ D.xbar
  after : ∀ s, l + k ≤ s → D.xbar < notional D xlag eps x s

/-- The path passes the tests for the spell `(l,k)` in five periods or, for the unconstrained path, in the first `L` periods. -/
def LooksFine (D : Declared E ν ε K) (xlag : ν → K) (eps : ε → K) (x : Nat → ν → K) (L l k : Nat) : Prop :=
  (k = 0 ∧ ∀ j < L, D.xbar < notional D xlag eps x j) ∨
  (1 ≤ k ∧ (1 ≤ l → D.xbar ≤ notional D xlag eps x 0) ∧ (2 ≤ l → D.xbar ≤ notional D xlag eps x (l - 1)) ∧
    notional D xlag eps x l ≤ D.xbar ∧ (2 ≤ k → notional D xlag eps x (l + k - 1) ≤ D.xbar) ∧ D.xbar ≤ notional D xlag eps x (l + k))

end
end Spec

variable {E ν ε o K : Type} [Fintype E] [Fintype ν] [Fintype ε] [Fintype o]
  [DecidableEq E] [DecidableEq ν] [DecidableEq ε] [Field K] [LinearOrder K] [IsStrictOrderedRing K]
variable {H z p : Type} [DecidableEq H] [Fintype H] [Fintype z] [Fintype p] [DecidableEq z] [DecidableEq p]
variable {D : Declared E ν ε K} {Z0 : Matrix o ν K} {Z1 : o → K} {tol : K} [DecidablePred (inall tol (yaml D Z0 Z1))]
  {lay : Layout tol (yaml D Z0 Z1) H z p}
  {orc : Oracle (Rows E H ε) (z ⊕ ε) p K} {lMax kMax : Nat} {sched : Nat → List Nat} {mod : Model z ε p o K}
  {c : Nat → Nat → Cell (z ⊕ ε) p K}

/-- The declared variables along a path of full states. -/
def Spec.declared (lay : Layout tol (yaml D Z0 Z1) H z p) (X : Nat → p ⊕ z → K) (s : Nat) (v : ν) : K := lay.val (X s) (.inl v)

/-- No spell inside the tables other than `(l,k)` leads to an expected path that passes the tests. -/
def Spec.NoRival (lay : Layout tol (yaml D Z0 Z1) H z p) (mod : Model z ε p o K) (lMax kMax : Nat) (st : p ⊕ z → K) (eps : ε → K)
    (l k : Nat) : Prop :=
  ∀ l' k' Y, l' ≤ lMax → k' ≤ kMax → ExpectedPath mod l' k' st eps Y →
    Spec.LooksFine D (lagVal lay st) eps (Spec.declared lay Y) (lMax + 1) l' k' → k' = k ∧ (k' = 0 ∨ l' = l)

theorem pathValue_loc (f : Fun3 (z ⊕ ε) p K) (c : Nat → Nat → Cell (z ⊕ ε) p K) (q0 : z ⊕ ε → K) (l k s : Nat) :
    pathValue f c q0 l k s = pathValue f c (qPath c l k q0 s) (elapsed l k s).1 (elapsed l k s).2 0 := by
  rw [elapsed_eq_loc]
  simp only [pathValue, pPath, qPath, locCell_zero]
  rfl

/-- The values that the search looks at are the notional values along the declared path. -/
theorem pathValue_notional (h : Succeeded lay orc lMax kMax sched mod) (hm : SolvedModel lay orc lMax kMax mod c) (hlag : D.rc = 0)
    (hself : D.rb D.cvar = 0) {l k : Nat} (hl : l ≤ lMax) (hk : k ≤ kMax) (st0 : p ⊕ z → K) (eps : ε → K) (s : Nat) :
    pathValue (ff lay) c (q0Of st0 eps) l k s =
      notional D (lagVal lay st0) eps (Spec.declared lay (xPath c l k (q0Of st0 eps))) s := by
  have hf := noLagFwd_of_rc (Z0 := Z0) (Z1 := Z1) hlag
  rw [pathValue_loc, ← q0Of_prev hm h.orc h.noTiny h.square hf hl hk st0 eps s, pathValue_declared h hlag hself,
    q0Of_prev hm h.orc h.noTiny h.square hf hl hk st0 eps s, ← xPath_loc]
  unfold notional
  rw [hlag, zero_dotProduct, add_zero]
  rfl

/-- Under `(l,0)` the path is the linear one for all `l`. -/
theorem xPath_l0 (h : Succeeded lay orc lMax kMax sched mod) (hm : SolvedModel lay orc lMax kMax mod c) {l : Nat} (hl : l ≤ lMax)
    (q0 : z ⊕ ε → K) (s : Nat) : qPath c l 0 q0 s = qPath c 0 0 q0 s ∧ xPath c l 0 q0 s = xPath c 0 0 q0 s := by
  obtain ⟨M', hS⟩ := hm.eng
  have hcell : ∀ l ≤ lMax, c l 0 = ⟨mod.omg, 0, mod.lam, 0⟩ := fun l hl =>
    cells_l0 hS (sysOf_T12 h.orc).1 (h.orc.klein _ _ hm.kl) hl
  have hloc : ∀ l ≤ lMax, ∀ s, locCell c l 0 s = ⟨mod.omg, 0, mod.lam, 0⟩ := by
    intro l hl s
    unfold locCell lLoc kLoc
    rw [Nat.zero_min]
    exact hcell _ (by omega)
  have hq : ∀ s, qPath c l 0 q0 s = qPath c 0 0 q0 s := by
    intro s
    induction s with
    | zero => rfl
    | succ s ih => simp only [qPath, ih, hloc l hl s, hloc 0 (by omega) s]
  refine ⟨hq s, ?_⟩
  unfold xPath pPath
  rw [hq s, hq (s + 1), hloc l hl s, hloc 0 (by omega) s]

/-- The search, in terms of the declared paths: it returns `(0,0)` if the unconstrained path passes the tests, and otherwise the first spell whose
path passes the tests. -/
theorem search_declared (h : Succeeded lay orc lMax kMax sched mod) (hk1 : 1 ≤ kMax) (hL : lMax + 1 ≤ 999) (hlag : D.rc = 0)
    (hself : D.rb D.cvar = 0) {l k : Nat} (hl : l ≤ lMax) (hk : k ≤ kMax) {st : p ⊕ z → K} {eps : ε → K} {X : Nat → p ⊕ z → K}
    (hX : ExpectedPath mod l k st eps X) (hs : Spec.LooksFine D (lagVal lay st) eps (Spec.declared lay X) (lMax + 1) l k)
    (hfirst : ∀ l' k' Y, l' ≤ lMax → k' ≤ kMax → (k' = 0 → l' = 0) → ExpectedPath mod l' k' st eps Y →
      Spec.LooksFine D (lagVal lay st) eps (Spec.declared lay Y) (lMax + 1) l' k' →
      (l' = l ∧ k' = k) ∨ (1 ≤ k ∧ 1 ≤ k' ∧ LexLt (l, k) (l', k')) ∨ (k = 0 ∧ 1 ≤ k')) (h00 : k = 0 → l = 0) :
    tFunc mod st eps .none false = .ok ⟨X 0, l, k, 0⟩ := by
  obtain ⟨c, hm⟩ := genSys_ok h.perm h.gen
  obtain ⟨M', hS⟩ := hm.eng
  have hz := h.states
  have hf := noLagFwd_of_rc (Z0 := Z0) (Z1 := Z1) hlag
  have hiff : ∀ {l' k'}, l' ≤ lMax → k' ≤ kMax → ∀ Y, ExpectedPath mod l' k' st eps Y ↔ ∀ s, Y s = xPath c l' k' (q0Of st eps) s :=
    fun hl' hk' Y => expectedPath_iff hm h.orc h.noTiny h.square h.states hf hl' hk' st eps Y
  have hXs : X = xPath c l k (q0Of st eps) := funext ((hiff hl hk X).1 hX)
  subst hXs
  have hv : ∀ {l' k'}, l' ≤ lMax → k' ≤ kMax → ∀ s, pathValue (ff lay) c (q0Of st eps) l' k' s =
      notional D (lagVal lay st) eps (Spec.declared lay (xPath c l' k' (q0Of st eps))) s :=
    fun hl' hk' s => pathValue_notional h hm hlag hself hl' hk' st eps s
  have hxb : mod.xbar = D.xbar := hm.xbar
  -- the unconstrained path
  have hnb : NeverBinds (fun i l k => pathValue (ff lay) c (q0Of st eps) l k (slotPeriod l k i)) mod.xbar (lMax + 1) ↔
      ∀ j < lMax + 1, D.xbar < notional D (lagVal lay st) eps (Spec.declared lay (xPath c 0 0 (q0Of st eps))) j := by
    unfold NeverBinds
    refine forall₂_congr fun j hj => ?_
    simp only [slotPeriod]
    rw [hv (show j ≤ lMax by omega) (Nat.zero_le _), hxb]
    have : Spec.declared lay (xPath c j 0 (q0Of st eps)) = Spec.declared lay (xPath c 0 0 (q0Of st eps)) := by
      funext s v
      unfold Spec.declared
      rw [(xPath_l0 h hm (show j ≤ lMax by omega) (q0Of st eps) s).2]
    rw [this]
  -- consistency
  have hcons : ∀ {l' k'}, l' ≤ lMax → k' ≤ kMax →
      Consistent (fun i l k => pathValue (ff lay) c (q0Of st eps) l k (slotPeriod l k i)) mod.xbar l' k' →
      Spec.LooksFine D (lagVal lay st) eps (Spec.declared lay (xPath c l' k' (q0Of st eps))) (lMax + 1) l' k' := by
    intro l' k' hl' hk' hc
    obtain ⟨c1, c2, c3, c4, c5, c6⟩ := hc
    simp only [slotPeriod, hv hl' hk', hxb] at c2 c3 c4 c5 c6
    exact .inr ⟨c1, c2, c3, c5, c6, c4⟩
  have hspec := findLk_spec (xbar := mod.xbar) (checkCnst_reads hS (q0Of st eps)) (by omega) hL (show 1 < kMax + 1 by omega)
  by_cases hk0 : k = 0
  · subst hk0
    obtain rfl := h00 rfl
    have hn := hnb.2 (by rcases hs with ⟨_, h1⟩ | ⟨h1, _⟩; exact h1; omega)
    rcases hspec with ⟨_, h2⟩ | ⟨h1, _⟩ | ⟨h1, _⟩
    · exact tFunc_find hm st eps h2 hl hk
    · exact absurd hn h1
    · exact absurd hn h1
  · have hc : Consistent (fun i l k => pathValue (ff lay) c (q0Of st eps) l k (slotPeriod l k i)) mod.xbar l k := by
      rcases hs with ⟨h1, _⟩ | ⟨h1, h2, h3, h4, h5, h6⟩
      · omega
      refine ⟨h1, fun g => ?_, fun g => ?_, ?_, ?_, fun g => ?_⟩ <;> simp only [slotPeriod, hv hl hk, hxb]
      · exact h2 g
      · exact h3 g
      · exact h6
      · exact h4
      · exact h5 g
    rcases hspec with ⟨h1, _⟩ | ⟨_, l', k', h1, h2⟩ | ⟨_, h1, _⟩
    · exfalso
      have := hfirst 0 0 _ (Nat.zero_le _) (Nat.zero_le _) (fun _ => rfl) ((hiff (Nat.zero_le _) (Nat.zero_le _) _).2 fun s => rfl)
        (.inl ⟨rfl, hnb.1 h1⟩)
      omega
    · obtain ⟨g1, g2, g3, g4⟩ := h1
      have := hfirst l' k' _ (by omega) (by omega) (fun h0 => by have := g3.binds; omega)
        ((hiff (by omega) (by omega) _).2 fun s => rfl) (hcons (by omega) (by omega) g3)
      rcases this with ⟨rfl, rfl⟩ | ⟨_, _, h3⟩ | h3
      · exact tFunc_find hm st eps h2 hl hk
      · exact absurd h3 (g4 l k (by omega) (by omega) hc)
      · omega
    · exact absurd hc (h1 l k (by omega) (by omega))

/-- The search finds an equilibrium that satisfies the constraint and has no rival. -/
theorem finds (h : Succeeded lay orc lMax kMax sched mod) (hk1 : 1 ≤ kMax) (hL : lMax + 1 ≤ 999) (hlag : D.rc = 0)
    (hself : D.rb D.cvar = 0) {l k : Nat} (hl : l ≤ lMax) (hk : k ≤ kMax) {st : p ⊕ z → K} {eps : ε → K} {X : Nat → p ⊕ z → K}
    (hX : ExpectedPath mod l k st eps X) (hs : Spec.Satisfies D (lagVal lay st) eps (Spec.declared lay X) l k)
    (hr : 1 ≤ k → Spec.NoRival lay mod lMax kMax st eps l k) (h00 : k = 0 → l = 0) :
    tFunc mod st eps .none false = .ok ⟨X 0, l, k, 0⟩ := by
  refine search_declared h hk1 hL hlag hself hl hk hX ?_ ?_ h00
  · by_cases hk0 : k = 0
    · exact .inl ⟨hk0, fun j _ => hs.after j (by have := h00 hk0; omega)⟩
    · exact .inr ⟨by omega, fun _ => hs.before 0 (by omega), fun _ => hs.before _ (by omega), hs.during _ ⟨le_rfl, by omega⟩,
        fun _ => hs.during _ ⟨by omega, by omega⟩, (hs.after _ le_rfl).le⟩
  · intro l' k' Y hl' hk' h00' hY hf'
    by_cases hk0 : k = 0
    · have := h00 hk0
      by_cases hk0' : k' = 0
      · have := h00' hk0'
        omega
      · omega
    · obtain ⟨h1, h2⟩ := hr (by omega) l' k' Y hl' hk' hY hf'
      omega

/-- What is left of a spell after its first `t + 1` periods. -/
theorem satisfies_later (hlag : D.rc = 0) {l k : Nat} {st0 : p ⊕ z → K} {eps : ε → K} {X : Nat → p ⊕ z → K}
    (hs : Spec.Satisfies D (lagVal lay st0) eps (Spec.declared lay X) l k) (t : Nat) :
    Spec.Satisfies D (lagVal lay (X t)) 0 (Spec.declared lay fun s => X (t + 1 + s)) (elapsed l k (t + 1)).1 (elapsed l k (t + 1)).2 := by
  have hn : ∀ s, notional D (lagVal lay (X t)) 0 (Spec.declared lay fun s => X (t + 1 + s)) s =
      notional D (lagVal lay st0) eps (Spec.declared lay X) (t + 1 + s) := by
    intro s
    unfold notional
    have h1 : shockAt (0 : ε → K) s = 0 := by cases s <;> rfl
    have h2 : shockAt eps (t + 1 + s) = 0 := by rw [show t + 1 + s = (t + s) + 1 by omega]; rfl
    rw [hlag, zero_dotProduct, zero_dotProduct, h1, h2]
    rfl
  refine ⟨fun s h => ?_, fun s h => ?_, fun s h => ?_⟩ <;> rw [hn]
  · refine hs.before _ ?_
    unfold elapsed at h
    split_ifs at h <;> simp only at h <;> omega
  · refine hs.during _ ?_
    unfold BindsAt elapsed at h
    unfold BindsAt
    split_ifs at h <;> simp only at h <;> omega
  · refine hs.after _ ?_
    unfold elapsed at h
    split_ifs at h <;> simp only at h <;> omega

/-- **C116** (holds if the expected path satisfies the constraint in every period, and no other spell passes the tests while the spell lasts):
if an impulse response starts in an equilibrium `(l,k)`, it follows the path that was expected at impact, in every period, with the spell
elapsing, and with flag 0. -/
theorem C116_expectations_come_true_partial (h : Succeeded lay orc lMax kMax sched mod) (hk1 : 1 ≤ kMax) (hL : lMax + 1 ≤ 999)
    (hlag : D.rc = 0) (hself : D.rb D.cvar = 0) (st0 : p ⊕ z → K) (sl : List (ShockSpec ε K)) (eps : ε → K)
    (hsl : ∀ t, Spec.ShocksAt sl t (shockAt eps t)) {r : Step z p K} (hr : tFunc mod st0 eps .none false = .ok r) (hflag : r.flag = 0)
    {X : Nat → p ⊕ z → K} (hX : ExpectedPath mod r.l r.k st0 eps X)
    (hs : Spec.Satisfies D (lagVal lay st0) eps (Spec.declared lay X) r.l r.k)
    (hriv : ∀ t, t + 1 < r.l + r.k → Spec.NoRival lay mod lMax kMax (X t) 0 (elapsed r.l r.k (t + 1)).1 (elapsed r.l r.k (t + 1)).2)
    (T : Nat) :
    ∃ xs, irfs mod ⟨sl, .none, false, false⟩ st0 T = .ok xs ∧ xs.length = T ∧
      ∀ (t : Nat) s, xs[t]? = some s → s.state = X t ∧ (s.l, s.k) = elapsed r.l r.k t ∧ s.flag = 0 := by
  have hb : r.l ≤ lMax ∧ r.k ≤ kMax ∧ (r.k = 0 → r.l = 0) := by
    obtain ⟨c, hm⟩ := genSys_ok h.perm h.gen
    obtain ⟨M', hS⟩ := hm.eng
    have hz := h.states
    obtain ⟨l, k, flag, hf, hl, hk, hcase⟩ := findLk_cases (xbar := mod.xbar) (checkCnst_reads hS (q0Of st0 eps)) (by omega) (by omega)
    rw [tFunc_find hm st0 eps hf (by omega) (by omega)] at hr
    cases hr
    refine ⟨by simp only; omega, by simp only; omega, ?_⟩
    simp only
    rcases hcase with ⟨h1, _⟩ | ⟨_, h2⟩ | ⟨h1, _⟩
    · exact fun _ => h1
    · have := h2.binds; omega
    · exact fun _ => h1
  obtain ⟨hl, hk, h00⟩ := hb
  have hstep : ∀ t, tFunc mod (prev st0 X t) (shockAt eps t) .none false =
      .ok ⟨X t, (elapsed r.l r.k t).1, (elapsed r.l r.k t).2, 0⟩ := by
    intro t
    cases t with
    | zero =>
      have h1 : X 0 = r.state := by
        obtain ⟨r', g1, g2, _, _⟩ := C14_impose_found_equilibrium h hk1 st0 eps r hr
        obtain ⟨r'', g5, g6⟩ := hX 0
        rw [elapsed_zero] at g5
        have : r' = r'' := by
          have g7 : Except.ok r' = Except.ok (ε := PyErr) r'' := g1.symm.trans g5
          exact Except.ok.inj g7
        rw [g6, ← this, g2]
      rw [elapsed_zero]
      show tFunc mod st0 eps .none false = _
      rw [hr, h1, ← hflag]
    | succ t =>
      have hX' := C15_restart hX t
      have := finds h hk1 hL hlag hself (elapsed_le hl hk (t + 1)).1 (elapsed_le hl hk (t + 1)).2 hX' (satisfies_later hlag hs t)
        (fun h1 => hriv t (by unfold elapsed at h1; split_ifs at h1 <;> simp only at h1 <;> omega))
        (fun h1 => by unfold elapsed at h1 ⊢; split_ifs at h1 ⊢ <;> simp only at h1 ⊢ <;> omega)
      exact this
  have hirf : ∀ t (s : IrfState z p K), s.state = prev st0 X t → s.flag = 0 →
      irfStep mod ⟨sl, .none, false, false⟩ s t = .ok ⟨X t, (elapsed r.l r.k t).1, (elapsed r.l r.k t).2, 0, s.mult⟩ := by
    intro t s h1 h2
    rw [irfStep_free (.inl rfl), h1, ← (shocksAt_iff sl _ _).1 (hsl _), hstep, h2]
    simp
  obtain ⟨xs, hx⟩ := irfRun_exists (m := mod) (a := ⟨sl, .none, false, false⟩) (fun t s => s.state = prev st0 X t ∧ s.flag = 0)
    (fun t s hs => ⟨_, hirf t s hs.1 hs.2, rfl, rfl⟩) T 0 ⟨st0, 0, 0, 0, false⟩ ⟨rfl, rfl⟩
  obtain ⟨h1, h2⟩ := irfRun_steps hx
  refine ⟨xs, hx, h1, ?_⟩
  have key : ∀ (t : Nat) s, xs[t]? = some s → s.state = X t ∧ (s.l, s.k) = elapsed r.l r.k t ∧ s.flag = 0 := by
    intro t
    induction t with
    | zero =>
      intro s hs
      have := h2 0 ⟨st0, 0, 0, 0, false⟩ s rfl hs
      rw [hirf 0 _ rfl rfl] at this
      cases this
      exact ⟨rfl, rfl, rfl⟩
    | succ t ih =>
      intro s hs
      have ht : t < xs.length := by
        have := List.getElem?_eq_some_iff.1 hs
        obtain ⟨h3, _⟩ := this
        omega
      have hp : xs[t]? = some xs[t] := List.getElem?_eq_getElem ht
      obtain ⟨g1, _, g3⟩ := ih _ hp
      have := h2 (t + 1) xs[t] s (by rw [List.getElem?_cons_succ]; exact hp) hs
      rw [Nat.zero_add, hirf (t + 1) _ g1 g3] at this
      cases this
      exact ⟨rfl, rfl, rfl⟩
  exact key

end Pydsge
