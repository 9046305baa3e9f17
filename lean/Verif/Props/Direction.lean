import Verif.Props.Existence
import Verif.Props.TimeConsUnique
import Verif.Props.Tiny
import Verif.Examples.Ex16

/-!
# C186: the direction in which the constraint moves the other variables
-/

set_option autoImplicit false
set_option linter.unusedSectionVars false
set_option linter.unusedSimpArgs false

namespace Pydsge

open Matrix Pydsge.Engine Pydsge.Spec Pydsge.Tools Pydsge.GenSys

variable {E ν ε o K : Type} [Fintype E] [Fintype ν] [Fintype ε] [Fintype o]
  [DecidableEq E] [DecidableEq ν] [DecidableEq ε] [Field K] [LinearOrder K] [IsStrictOrderedRing K]
variable {H z p : Type} [DecidableEq H] [Fintype H] [Fintype z] [Fintype p] [DecidableEq z] [DecidableEq p]
section Yaml
variable {D : Declared E ν ε K} {Z0 : Matrix o ν K} {Z1 : o → K} {tol : K} [DecidablePred (inall tol (yaml D Z0 Z1))]
  {lay : Layout tol (yaml D Z0 Z1) H z p}
  {orc : Oracle (Rows E H ε) (z ⊕ ε) p K} {lMax kMax : Nat} {sched : Nat → List Nat} {mod : Model z ε p o K}

/-- `d` is the response of the linear model to the announced disturbances `w` of the constraint equation: nothing happened before and no shock
occurs, all other equations hold, the constrained variable is by `w s` above the value that satisfies the constraint equation, and in the end the
path is on the linear solution. -/
structure Spec.AnnouncedResponse (lay : Layout tol (yaml D Z0 Z1) H z p) (mod : Model z ε p o K) (d : Nat → ν → K) (w : Nat → K) : Prop where
  eqs : ∀ s, EqsHold D 0 0 d s
  rule : ∀ s, d s D.cvar = Spec.ruleAt (Spec.asSolved D) 0 0 d s + w s
  ends : ∃ n, Spec.JoinsLinear lay mod 0 0 d n

/-- Announced increases of the constrained variable never raise the variable `v` in period `t`. -/
def Spec.Lowers (lay : Layout tol (yaml D Z0 Z1) H z p) (mod : Model z ε p o K) (v : ν) (t : Nat) : Prop :=
  ∀ d w, Spec.AnnouncedResponse lay mod d w → (∀ s, 0 ≤ w s) → d t v ≤ 0

/-- Announced increases of the constrained variable never lower the variable `v` in period `t`. -/
def Spec.Raises (lay : Layout tol (yaml D Z0 Z1) H z p) (mod : Model z ε p o K) (v : ν) (t : Nat) : Prop :=
  ∀ d w, Spec.AnnouncedResponse lay mod d w → (∀ s, 0 ≤ w s) → 0 ≤ d t v

/-- **C186.** The path under an expected spell differs from the linear path by the response of the linear model to announced disturbances of the
constraint equation: in the periods of the spell the distance between the bound and the value that satisfies the constraint equation, and in all
other periods none. -/
theorem C186_difference (h : Succeeded lay orc lMax kMax sched mod) (hlag : Spec.LagsNotExpected D) (hself : D.rb D.cvar ≠ 1)
    {l k : Nat} (hl : l ≤ lMax) (hk : k ≤ kMax) {st : p ⊕ z → K} {eps : ε → K} {X Y : Nat → p ⊕ z → K}
    (hX : ExpectedPath mod l k st eps X) (hY : ExpectedPath mod 0 0 st eps Y) :
    Spec.AnnouncedResponse lay mod (fun s => Spec.declared lay X s - Spec.declared lay Y s) (fun s =>
      if BindsAt l k s then D.xbar - Spec.ruleAt (Spec.asSolved D) (lagVal lay st) eps (Spec.declared lay X) s else 0) := by
  have hdecl : ∀ {Z : Nat → p ⊕ z → K} {x : Nat → ν → K}, (∀ s, Z s = stateOf lay (x s)) → Spec.declared lay Z = x := by
    intro Z x hZ
    funext s v
    unfold Spec.declared
    rw [hZ, val_stateOf lay h.square]
    rfl
  obtain ⟨x, hx1, hx2, hx3⟩ := (C148_characterisation h hlag hself hl hk st eps X).1 hX
  obtain ⟨y, hy1, hy2, hy3⟩ := (C148_characterisation h hlag hself (Nat.zero_le _) (Nat.zero_le _) st eps Y).1 hY
  rw [hdecl hx1, hdecl hy1]
  refine ⟨fun s => eqs_sub (hx2.eqs s) (hy2.eqs s), fun s => ?_, l + k, ?_⟩
  · rw [ruleAt_sub (Spec.asSolved D) (lagVal lay st) eps x y s]
    have hy := rule_of_joins h hlag hself hy3 (Nat.zero_le s)
    show x s D.cvar - y s D.cvar = _
    rw [hy]
    by_cases hb : BindsAt l k s
    · simp only [if_pos hb]
      have : x s D.cvar = D.xbar := hx2.binding s hb
      rw [this]
      ring
    · simp only [if_neg hb]
      have : x s D.cvar = _ := (rule_iff (D := Spec.asSolved D) hself (lagVal lay st) eps x s).2 (hx2.slack s hb)
      rw [this]
      ring
  · have := joins_sub h hx3 (joins_mono hy3 (Nat.zero_le (l + k)))
    rwa [sub_self, sub_self] at this

/-- In all periods of the spell the value that satisfies the constraint equation is not above the bound. -/
def Spec.Genuine (lay : Layout tol (yaml D Z0 Z1) H z p) (st : p ⊕ z → K) (eps : ε → K) (X : Nat → p ⊕ z → K)
    (l k : Nat) : Prop :=
  ∀ s, BindsAt l k s → Spec.ruleAt (Spec.asSolved D) (lagVal lay st) eps (Spec.declared lay X) s ≤ D.xbar

theorem genuine_nonneg {st : p ⊕ z → K} {eps : ε → K} {X : Nat → p ⊕ z → K} {l k : Nat} (hg : Spec.Genuine lay st eps X l k) (s : Nat) :
    0 ≤ (if BindsAt l k s then D.xbar - Spec.ruleAt (Spec.asSolved D) (lagVal lay st) eps (Spec.declared lay X) s else 0) := by
  by_cases hb : BindsAt l k s
  · simp only [if_pos hb]
    exact sub_nonneg.2 (hg s hb)
  · simp only [if_neg hb, le_refl]

/-- **C186.** A spell in which the constraint genuinely binds lowers each variable that announced increases of the constrained variable lower, -/
theorem C186_lowers (h : Succeeded lay orc lMax kMax sched mod) (hlag : Spec.LagsNotExpected D) (hself : D.rb D.cvar ≠ 1)
    {l k : Nat} (hl : l ≤ lMax) (hk : k ≤ kMax) {st : p ⊕ z → K} {eps : ε → K} {X Y : Nat → p ⊕ z → K}
    (hX : ExpectedPath mod l k st eps X) (hY : ExpectedPath mod 0 0 st eps Y) (hg : Spec.Genuine lay st eps X l k)
    {v : ν} {t : Nat} (hv : Spec.Lowers lay mod v t) : lay.val (X t) (.inl v) ≤ lay.val (Y t) (.inl v) :=
  sub_nonpos.1 (hv _ _ (C186_difference h hlag hself hl hk hX hY) (genuine_nonneg hg))

/-- **C186.** and raises each variable that they raise. -/
theorem C186_raises (h : Succeeded lay orc lMax kMax sched mod) (hlag : Spec.LagsNotExpected D) (hself : D.rb D.cvar ≠ 1)
    {l k : Nat} (hl : l ≤ lMax) (hk : k ≤ kMax) {st : p ⊕ z → K} {eps : ε → K} {X Y : Nat → p ⊕ z → K}
    (hX : ExpectedPath mod l k st eps X) (hY : ExpectedPath mod 0 0 st eps Y) (hg : Spec.Genuine lay st eps X l k)
    {v : ν} {t : Nat} (hv : Spec.Raises lay mod v t) : lay.val (Y t) (.inl v) ≤ lay.val (X t) (.inl v) :=
  sub_nonneg.1 (hv _ _ (C186_difference h hlag hself hl hk hX hY) (genuine_nonneg hg))

/-- What a transition with flag 0 has tested, for the spell that it returns. -/
theorem passes_of_flag (h : Succeeded lay orc lMax kMax sched mod) (hk1 : 1 ≤ kMax) (hlag : Spec.LagsNotExpected D)
    (hself : D.rb D.cvar ≠ 1) {st : p ⊕ z → K} {eps : ε → K} {r : Step z p K} (hr : tFunc mod st eps .none false = .ok r) (hflag : r.flag = 0)
    {X : Nat → p ⊕ z → K} (hX : ExpectedPath mod r.l r.k st eps X) :
    r.k = 0 ∨ (Spec.ruleAt (Spec.asSolved D) (lagVal lay st) eps (Spec.declared lay X) r.l ≤ D.xbar ∧
      (2 ≤ r.k → Spec.ruleAt (Spec.asSolved D) (lagVal lay st) eps (Spec.declared lay X) (r.l + r.k - 1) ≤ D.xbar)) := by
  obtain ⟨c, hm⟩ := genSys_ok h.perm h.gen
  obtain ⟨M', hS⟩ := hm.eng
  have hz := h.states
  have hf := noLagFwd_of_not_expected (Z0 := Z0) (Z1 := Z1) hlag
  have hxb : mod.xbar = D.xbar := hm.xbar
  obtain ⟨l, k, flag, hfd, hl, hk, hcase⟩ := findLk_cases (xbar := mod.xbar) (checkCnst_reads hS (q0Of st eps)) (by omega)
    (show 1 < kMax + 1 by omega)
  have hrun := tFunc_find hm st eps hfd (by omega) (by omega)
  have : _ = r := Except.ok.inj (hrun.symm.trans hr)
  subst this
  simp only at hflag hX ⊢
  rcases hcase with ⟨h1, h2, h3, h4⟩ | ⟨h1, h2⟩ | ⟨h1, h2, h3⟩
  · exact .inl h2
  · obtain ⟨c1, c2, c3, c4, c5, c6⟩ := h2
    have hXs : X = xPath c l k (q0Of st eps) :=
      funext ((expectedPath_iff hm h.orc h.noTiny h.square h.states hf (show l ≤ lMax by omega) (show k ≤ kMax by omega) st eps X).1 hX)
    subst hXs
    simp only [slotPeriod, pathValue_rule h hm hlag hself (show l ≤ lMax by omega) (show k ≤ kMax by omega), hxb] at c2 c3 c4 c5 c6
    exact .inr ⟨c5, c6⟩
  · exact absurd hflag h3

/-- A reported spell of at most two periods genuinely binds: both periods are tested. -/
theorem genuine_of_short (h : Succeeded lay orc lMax kMax sched mod) (hk1 : 1 ≤ kMax) (hlag : Spec.LagsNotExpected D)
    (hself : D.rb D.cvar ≠ 1) {st : p ⊕ z → K} {eps : ε → K} {r : Step z p K} (hr : tFunc mod st eps .none false = .ok r) (hflag : r.flag = 0)
    (hk : r.k ≤ 2) {X : Nat → p ⊕ z → K} (hX : ExpectedPath mod r.l r.k st eps X) : Spec.Genuine lay st eps X r.l r.k := by
  intro s hs
  unfold BindsAt at hs
  rcases passes_of_flag h hk1 hlag hself hr hflag hX with h0 | ⟨h1, h2⟩
  · omega
  · rcases Nat.lt_or_ge s (r.l + 1) with hs' | hs'
    · obtain rfl : s = r.l := by omega
      exact h1
    · obtain rfl : s = r.l + r.k - 1 := by omega
      exact h2 (by omega)

/-- **C186.** In one transition with flag 0 and a spell of at most two periods, the constraint lowers what announced increases of the constrained
variable lower. For longer spells the same holds if the constraint genuinely binds in the periods that are not tested. -/
theorem C186_transition (h : Succeeded lay orc lMax kMax sched mod) (hk1 : 1 ≤ kMax) (hlag : Spec.LagsNotExpected D)
    (hself : D.rb D.cvar ≠ 1) {st : p ⊕ z → K} {eps : ε → K} {r r' : Step z p K} (hr : tFunc mod st eps .none false = .ok r)
    (hg : (r.flag = 0 ∧ r.k ≤ 2) ∨ ∃ X, ExpectedPath mod r.l r.k st eps X ∧ Spec.Genuine lay st eps X r.l r.k)
    (hr' : tFunc mod st eps .none true = .ok r') {v : ν} :
    (Spec.Lowers lay mod v 0 → lay.val r.state (.inl v) ≤ lay.val r'.state (.inl v)) ∧
    (Spec.Raises lay mod v 0 → lay.val r'.state (.inl v) ≤ lay.val r.state (.inl v)) := by
  obtain ⟨hl, hk⟩ := found_inside h hk1 hr
  obtain ⟨c, hm⟩ := genSys_ok h.perm h.gen
  have hz := h.states
  have hf := noLagFwd_of_not_expected (Z0 := Z0) (Z1 := Z1) hlag
  obtain ⟨X, hX, hgen⟩ : ∃ X, ExpectedPath mod r.l r.k st eps X ∧ Spec.Genuine lay st eps X r.l r.k := by
    rcases hg with ⟨h0, h2⟩ | hg
    · have hX := (expectedPath_iff hm h.orc h.noTiny h.square h.states hf hl hk st eps (xPath c r.l r.k (q0Of st eps))).2 fun _ => rfl
      exact ⟨_, hX, genuine_of_short h hk1 hlag hself hr h0 h2 hX⟩
    · exact hg
  obtain ⟨Y, hY⟩ := linear_expectedPath hm st eps
  have first : ∀ {l k : Nat} {Z : Nat → p ⊕ z → K} {r0 : Step z p K}, ExpectedPath mod l k st eps Z →
      tFunc mod st eps (.pair l k) false = .ok r0 → r0.state = Z 0 := by
    intro l k Z r0 hZ h0
    obtain ⟨r2, g5, g6⟩ := hZ 0
    rw [elapsed_zero] at g5
    have : r0 = r2 := Except.ok.inj (h0.symm.trans g5)
    rw [g6, this]
  have e1 : r.state = X 0 := by
    obtain ⟨r1, g1, g2, _, _⟩ := C14_impose_found_equilibrium h hk1 st eps r hr
    rw [← g2, first hX g1]
  have e2 : r'.state = Y 0 := first hY (by rw [← hr']; rfl)
  rw [e1, e2]
  exact ⟨C186_lowers h hlag hself hl hk hX hY hgen, C186_raises h hlag hself hl hk hX hY hgen⟩

/-- The linear impulse response follows the path that is expected if the constraint never binds. -/
theorem irfs_linear_path {st0 : p ⊕ z → K} {sl : List (ShockSpec ε K)} {eps : ε → K}
    (hsl : ∀ t, Spec.ShocksAt sl t (shockAt eps t)) {Y : Nat → p ⊕ z → K} (hY : ExpectedPath mod 0 0 st0 eps Y) {T : Nat}
    {ys : List (IrfState z p K)} (hys : irfs mod ⟨sl, .none, false, true⟩ st0 T = .ok ys) :
    ∀ (t : Nat) s, ys[t]? = some s → s.state = Y t := by
  obtain ⟨h1, h2⟩ := irfRun_steps hys
  have step : ∀ (t : Nat) (s s' : IrfState z p K), s.state = prev st0 Y t → irfStep mod ⟨sl, .none, false, true⟩ s t = .ok s' → s'.state = Y t := by
    intro t s s' hs hst
    obtain ⟨r, g1, g2⟩ := hY t
    have he : elapsed 0 0 t = (0, 0) := by
      unfold elapsed
      split_ifs <;> simp
    rw [he] at g1
    rw [irfStep_free (.inl rfl), hs, ← (shocksAt_iff sl _ _).1 (hsl _), show tFunc mod (prev st0 Y t) (shockAt eps t) .none true = .ok r from g1] at hst
    cases hst
    exact g2.symm
  intro t
  induction t with
  | zero =>
    intro s hs
    exact step 0 _ s rfl (h2 0 _ s rfl hs)
  | succ t ih =>
    intro s hs
    have ht : t < ys.length := by
      obtain ⟨h3, _⟩ := List.getElem?_eq_some_iff.1 hs
      omega
    have hp : ys[t]? = some ys[t] := List.getElem?_eq_getElem ht
    have := h2 (t + 1) ys[t] s (by rw [List.getElem?_cons_succ]; exact hp) hs
    rw [Nat.zero_add] at this
    exact step (t + 1) _ s (ih _ hp) this

/-- **C186.** An impulse response that follows what was expected at impact (C173, C174) lies below the linear impulse response, period by period, in
all variables that announced increases of the constrained variable lower, and above it in all variables that they raise. -/
theorem C186_irfs (h : Succeeded lay orc lMax kMax sched mod) (hlag : Spec.LagsNotExpected D) (hself : D.rb D.cvar ≠ 1)
    {st0 : p ⊕ z → K} {sl : List (ShockSpec ε K)} {eps : ε → K} (hsl : ∀ t, Spec.ShocksAt sl t (shockAt eps t)) {l k : Nat} (hl : l ≤ lMax)
    (hk : k ≤ kMax) {X : Nat → p ⊕ z → K} (hX : ExpectedPath mod l k st0 eps X) (hg : Spec.Genuine lay st0 eps X l k) {T : Nat}
    {xs ys : List (IrfState z p K)} (hxs : ∀ (t : Nat) s, xs[t]? = some s → s.state = X t)
    (hys : irfs mod ⟨sl, .none, false, true⟩ st0 T = .ok ys) {t : Nat} {s s' : IrfState z p K} (hs : xs[t]? = some s) (hs' : ys[t]? = some s')
    {v : ν} :
    (Spec.Lowers lay mod v t → lay.val s.state (.inl v) ≤ lay.val s'.state (.inl v)) ∧
    (Spec.Raises lay mod v t → lay.val s'.state (.inl v) ≤ lay.val s.state (.inl v)) := by
  obtain ⟨c, hm⟩ := genSys_ok h.perm h.gen
  have hz := h.states
  obtain ⟨Y, hY⟩ := linear_expectedPath hm st0 eps
  rw [hxs t s hs, irfs_linear_path hsl hY hys t s' hs']
  exact ⟨C186_lowers h hlag hself hl hk hX hY hg, C186_raises h hlag hself hl hk hX hY hg⟩

/-- In an equilibrium the constraint genuinely binds. -/
theorem genuine_of_equilibrium (h : Succeeded lay orc lMax kMax sched mod) (hlag : Spec.LagsNotExpected D) (hself : D.rb D.cvar ≠ 1)
    {l k : Nat} (hl : l ≤ lMax) (hk : k ≤ kMax) {st : p ⊕ z → K} {eps : ε → K} {X : Nat → p ⊕ z → K} (hX : ExpectedPath mod l k st eps X)
    (hXe : Spec.RuleEquilibrium (Spec.asSolved D) (lagVal lay st) eps (Spec.declared lay X)) : Spec.Genuine lay st eps X l k := by
  intro s hs
  have h1 : Spec.declared lay X s D.cvar = D.xbar := (C148_paths_solve h hlag hself hl hk st eps X hX).binding s hs
  have h2 : Spec.declared lay X s D.cvar = max D.xbar _ := hXe.con s
  rw [h1] at h2
  exact max_eq_left_iff.1 h2.symm

/-- **C186.** So it is in all impulse responses of the models of C174: if announced disturbances do not reverse and what is reported is an
equilibrium, the constrained response lies below the linear one in all variables that announced increases lower, in all periods. -/
theorem C186_irfs_announced (h : Succeeded lay orc lMax kMax sched mod) (hk1 : 1 ≤ kMax) (hlag : Spec.LagsNotExpected D)
    (hself : D.rb D.cvar ≠ 1) (hP : Spec.NoReversalOf lay mod) (st0 : p ⊕ z → K) (sl : List (ShockSpec ε K)) (eps : ε → K)
    (hsl : ∀ t, Spec.ShocksAt sl t (shockAt eps t)) {r : Step z p K} (hr : tFunc mod st0 eps .none false = .ok r)
    {X : Nat → p ⊕ z → K} (hX : ExpectedPath mod r.l r.k st0 eps X)
    (hXe : Spec.RuleEquilibrium (Spec.asSolved D) (lagVal lay st0) eps (Spec.declared lay X))
    (hrep : ∀ t, Spec.ReportsEquilibrium lay mod (X t) 0) (T : Nat) (v : ν) :
    ∃ xs ys, irfs mod ⟨sl, .none, false, false⟩ st0 T = .ok xs ∧ irfs mod ⟨sl, .none, false, true⟩ st0 T = .ok ys ∧
      xs.length = T ∧ ys.length = T ∧ ∀ (t : Nat) s s', xs[t]? = some s → ys[t]? = some s' →
        (Spec.Lowers lay mod v t → lay.val s.state (.inl v) ≤ lay.val s'.state (.inl v)) ∧
        (Spec.Raises lay mod v t → lay.val s'.state (.inl v) ≤ lay.val s.state (.inl v)) := by
  obtain ⟨hl, hk⟩ := found_inside h hk1 hr
  obtain ⟨xs, h1, h2, h3⟩ := C174_as_announced h hk1 hlag hself hP st0 sl eps hsl hr hX hXe hrep T
  obtain ⟨ys, h4⟩ := irfRun_exists (m := mod) (a := ⟨sl, .none, false, true⟩) (fun _ _ => True)
    (fun t s _ => by
      rw [irfStep_free (.inl rfl), tFunc_linear_eq h]
      exact ⟨_, rfl, trivial⟩) T 0 ⟨st0, 0, 0, 0, false⟩ trivial
  exact ⟨xs, ys, h1, h4, h2, (irfRun_steps h4).1, fun t s s' hs hs' =>
    C186_irfs h hlag hself hsl hl hk hX (genuine_of_equilibrium h hlag hself hl hk hX hXe) h3 h4 hs hs'⟩

end Yaml

namespace Ex16

variable {lMax kMax : Nat} {sched : Nat → List Nat} {mod : Model Bool Bool (Fin 1) (Fin 1) Rat}

theorem lagsNotExpected : Spec.LagsNotExpected decl := Spec.LagsNotExpected.of_rc rfl

theorem self_ne : decl.rb decl.cvar ≠ 1 := by
  simp [decl]

/-- the sequence of one variable with the value before it -/
theorem eqs_iff {xl : Fin 3 → Rat} {eps : Bool → Rat} {x : Nat → Fin 3 → Rat} {s : Nat} :
    EqsHold decl xl eps x s ↔ x s 0 = 1/2 * prev xl x s 0 + shockAt eps s false ∧
      x s 1 = 1/2 * prev xl x s 1 - x (s + 1) 2 + shockAt eps s true := by
  constructor
  · intro hh
    have h0 := congrFun hh false
    have h1 := congrFun hh true
    simp [decl, mulVec, dotProduct, Fin.sum_univ_three] at h0 h1
    exact ⟨by linarith, by linarith⟩
  · rintro ⟨h0, h1⟩
    funext i
    cases i <;> simp [decl, mulVec, dotProduct, Fin.sum_univ_three] <;> linarith

theorem rule_eq {xl : Fin 3 → Rat} {eps : Bool → Rat} {x : Nat → Fin 3 → Rat} {s : Nat} :
    Spec.ruleAt (Spec.asSolved decl) xl eps x s = x s 0 := by
  unfold Spec.ruleAt
  rw [Spec.ruleValue_eq]
  simp [Spec.asSolved, decl, dotProduct, Fin.sum_univ_three]

/-- the response to announced disturbances -/
theorem response_iff {d : Nat → Fin 3 → Rat} {w : Nat → Rat} (hd : Spec.AnnouncedResponse lay mod d w) (s : Nat) :
    d s 0 = 0 ∧ d s 2 = w s ∧ d s 1 = 1/2 * prev 0 d s 1 - w (s + 1) := by
  have h0 : ∀ s, d s 0 = 0 := by
    intro s
    induction s with
    | zero =>
      have := (eqs_iff.1 (hd.eqs 0)).1
      simpa [prev, shockAt] using this
    | succ s ih =>
      have := (eqs_iff.1 (hd.eqs (s + 1))).1
      simpa [prev, shockAt, ih] using this
  have h2 : ∀ s, d s 2 = w s := by
    intro s
    have := hd.rule s
    rw [rule_eq, h0] at this
    rw [← zero_add (w s), ← this]
    rfl
  refine ⟨h0 s, h2 s, ?_⟩
  have := (eqs_iff.1 (hd.eqs s)).2
  rw [this, h2, shockAt_zero]
  simp

/-- announced increases of `r` lower `w` in all periods, -/
theorem lowers_w (t : Nat) : Spec.Lowers lay mod 1 t := by
  intro d w hd hw
  induction t with
  | zero =>
    have := (response_iff hd 0).2.2
    have := hw 1
    simp only [prev, Pi.zero_apply] at *
    linarith
  | succ t ih =>
    have := (response_iff hd (t + 1)).2.2
    have := hw (t + 2)
    simp only [prev] at *
    linarith

/-- raise `r`, -/
theorem raises_r (t : Nat) : Spec.Raises lay mod 2 t := by
  intro d w hd hw
  rw [(response_iff hd t).2.1]
  exact hw t

/-- and do not change `y`. -/
theorem keeps_y (t : Nat) : Spec.Lowers lay mod 0 t ∧ Spec.Raises lay mod 0 t :=
  ⟨fun _ _ hd _ => ((response_iff hd t).1).le, fun _ _ hd _ => ((response_iff hd t).1).ge⟩

/-- the shock `-3` in the first equation -/
def shock3 : Bool → Rat := fun b => if b then 0 else -3

theorem path_eqs (h : Succeeded lay orc lMax kMax sched mod) {l k : Nat} (hl : l ≤ lMax) (hk : k ≤ kMax) {st : Fin 1 ⊕ Bool → Rat}
    {eps : Bool → Rat} {X : Nat → Fin 1 ⊕ Bool → Rat} (hX : ExpectedPath mod l k st eps X) (s : Nat) :
    Spec.declared lay X s 0 = 1/2 * prev (lagVal lay st) (Spec.declared lay X) s 0 + shockAt eps s false ∧
      Spec.declared lay X s 1 = 1/2 * prev (lagVal lay st) (Spec.declared lay X) s 1 - Spec.declared lay X (s + 1) 2 + shockAt eps s true := by
  have hs : EqsHold decl (lagVal lay st) eps (Spec.declared lay X) s :=
    (C148_paths_solve h lagsNotExpected self_ne hl hk st eps X hX).eqs s
  exact eqs_iff.1 hs

theorem path_y (h : Succeeded lay orc lMax kMax sched mod) {l k : Nat} (hl : l ≤ lMax) (hk : k ≤ kMax) {st : Fin 1 ⊕ Bool → Rat}
    {eps : Bool → Rat} {X : Nat → Fin 1 ⊕ Bool → Rat} (hX : ExpectedPath mod l k st eps X) (s : Nat) :
    Spec.declared lay X s 0 = (1/2 * st (.inr false) + eps false) * (1/2) ^ s := by
  have hl0 : lagVal lay st 0 = st (.inr false) := by
    unfold lagVal
    rw [if_neg (not_inall 0)]
    exact lay.val_z st false
  induction s with
  | zero =>
    have := (path_eqs h hl hk hX 0).1
    simp only [prev, hl0, shockAt] at this
    rw [this]
    simp
  | succ s ih =>
    have := (path_eqs h hl hk hX (s + 1)).1
    simp only [prev, shockAt, Pi.zero_apply, add_zero] at this
    rw [this, ih, pow_succ]
    ring

theorem pow_half_le {s n : Nat} (h : n ≤ s) : ((1 : Rat)/2) ^ s ≤ (1/2) ^ n := pow_le_pow_of_le_one (by norm_num) (by norm_num) h

/-- with `y` at impact above `-1` the constraint never binds -/
theorem run_none (h : Succeeded lay orc lMax kMax sched mod) (hk : 1 ≤ kMax) (hL : lMax + 1 ≤ 999) {st : Fin 1 ⊕ Bool → Rat} {eps : Bool → Rat}
    (h1 : -1 < 1/2 * st (.inr false) + eps false) {X : Nat → Fin 1 ⊕ Bool → Rat} (hX : ExpectedPath mod 0 0 st eps X) :
    tFunc mod st eps .none false = .ok ⟨X 0, 0, 0, 0⟩ := by
  have hx : decl.xbar = -1 := rfl
  refine finds_general h hk hL lagsNotExpected self_ne (Nat.zero_le _) (Nat.zero_le _) hX ⟨fun s hs => by omega, fun s hs => ?_, fun s hs => ?_⟩
    (by omega) (by omega)
  · unfold BindsAt at hs
    omega
  · rw [rule_eq, path_y h (Nat.zero_le _) (Nat.zero_le _) hX, hx]
    have g1 := pow_half_le (Nat.zero_le s)
    have g2 : (0 : Rat) < (1/2) ^ s := pow_pos (by norm_num) s
    rw [pow_zero] at g1
    nlinarith

/-- with `y` at impact such that it is below `-1` for exactly `k` periods -/
theorem run_some (h : Succeeded lay orc lMax kMax sched mod) {k : Nat} (hk1 : 1 ≤ k) (hk : k ≤ kMax) (hL : lMax + 1 ≤ 999)
    {st : Fin 1 ⊕ Bool → Rat} {eps : Bool → Rat} {a : Rat} (ha : 1/2 * st (.inr false) + eps false = a) (h0 : a < -1)
    (h1 : a * (1/2) ^ (k - 1) < -1) (h2 : -1 < a * (1/2) ^ k) {X : Nat → Fin 1 ⊕ Bool → Rat} (hX : ExpectedPath mod 0 k st eps X) :
    tFunc mod st eps .none false = .ok ⟨X 0, 0, k, 0⟩ := by
  have hx : decl.xbar = -1 := rfl
  have mono : ∀ {s n : Nat}, s ≤ n → a * (1/2) ^ s ≤ a * (1/2) ^ n := fun hs =>
    mul_le_mul_of_nonpos_left (pow_half_le hs) (by linarith)
  refine finds_general h (by omega) hL lagsNotExpected self_ne (Nat.zero_le _) hk hX ⟨fun s hs => by omega, fun s hs => ?_, fun s hs => ?_⟩
    (fun _ => ?_) (by omega)
  · rw [rule_eq, path_y h (Nat.zero_le _) hk hX, hx, ha]
    unfold BindsAt at hs
    exact (mono (show s ≤ k - 1 by omega)).trans h1.le
  · rw [rule_eq, path_y h (Nat.zero_le _) hk hX, hx, ha]
    exact h2.trans_le (mono (show k ≤ s by omega))
  · intro l' k' Y hl' hk' hY hp
    unfold Spec.PassesTests at hp
    simp only [rule_eq, path_y h hl' hk' hY, hx, ha] at hp
    rcases hp with ⟨rfl, hp⟩ | ⟨c1, c2, -, c4, c5, c6⟩
    · have := hp 0 (by omega)
      rw [pow_zero, mul_one] at this
      linarith
    · have e0 : l' = 0 := by
        by_contra hn
        have := c2 (by omega)
        rw [pow_zero, mul_one] at this
        linarith
      subst e0
      refine ⟨?_, .inr rfl⟩
      rw [Nat.zero_add] at c5 c6
      rcases Nat.lt_trichotomy k' k with g | g | g
      · have := mono (show k' ≤ k - 1 by omega)
        linarith
      · exact g
      · have := c5 (by omega)
        have := mono (show k ≤ k' - 1 by omega)
        linarith

/-- announced disturbances do not reverse -/
theorem noReversalOf : Spec.NoReversalOf lay mod := by
  intro d w n h1 h2 h3 h4
  have hd : Spec.AnnouncedResponse lay mod d w := ⟨h1, h2, n, h3⟩
  have hw : ∀ s, w s = 0 := by
    intro s
    have := h4 s
    rw [show d s decl.cvar = w s from (response_iff hd s).2.1] at this
    exact mul_self_eq_zero.1 (le_antisymm this (mul_self_nonneg _))
  have hd1 : ∀ s, d s 1 = 0 := by
    intro s
    induction s with
    | zero =>
      have := (response_iff hd 0).2.2
      simpa [prev, hw] using this
    | succ s ih =>
      have := (response_iff hd (s + 1)).2.2
      simpa [prev, hw, ih] using this
  funext s v
  fin_cases v
  · exact (response_iff hd s).1
  · exact hd1 s
  · exact ((response_iff hd s).2.1).trans (hw s)

end Ex16

/-- **C186**: the hypotheses of `C186_irfs_announced` are met: the impulse responses to the shock `-3`. -/
theorem C186_irfs_hypotheses_met : ∃ mod r X, Succeeded Ex16.lay Ex16.orc 3 5 (serial 5) mod ∧ Spec.NoReversalOf Ex16.lay mod ∧
    (∀ t, Spec.ShocksAt [(false, (-3 : Rat), 0)] t (shockAt Ex16.shock3 t)) ∧ tFunc mod 0 Ex16.shock3 .none false = .ok r ∧ r.k = 2 ∧
    ExpectedPath mod r.l r.k 0 Ex16.shock3 X ∧
    Spec.RuleEquilibrium (Spec.asSolved Ex16.decl) (lagVal Ex16.lay (0 : Fin 1 ⊕ Bool → Rat)) Ex16.shock3 (Spec.declared Ex16.lay X) ∧
    ∀ t, Spec.ReportsEquilibrium Ex16.lay mod (X t) 0 := by
  obtain ⟨mod, h⟩ := Ex16.succeeds 3 5 (Ex16.serial_perm 3 5)
  obtain ⟨c, hm⟩ := genSys_ok h.perm h.gen
  have hz := h.states
  have hx : Ex16.decl.xbar = -1 := rfl
  have hf := noLagFwd_of_not_expected (Z0 := fun (_ : Fin 1) (v : Fin 3) => if v = 0 then (1 : Rat) else 0)
    (Z1 := fun _ => 0) Ex16.lagsNotExpected
  have hX := (expectedPath_iff hm h.orc h.noTiny h.square h.states hf (Nat.zero_le 3) (show 2 ≤ 5 by omega) 0 Ex16.shock3
    (xPath c 0 2 (q0Of 0 Ex16.shock3))).2 fun _ => rfl
  generalize xPath c 0 2 (q0Of 0 Ex16.shock3) = X at hX
  have hr := Ex16.run_some h (by omega) (show 2 ≤ 5 by omega) (by omega) (st := 0) (eps := Ex16.shock3) (a := -3) (by simp [Ex16.shock3])
    (by norm_num) (by norm_num) (by norm_num) hX
  have hy : ∀ s, Spec.declared Ex16.lay X s 0 = -3 * (1/2) ^ s := by
    intro s
    rw [Ex16.path_y h (Nat.zero_le 3) (show 2 ≤ 5 by omega) hX s]
    simp [Ex16.shock3]
  have hsol := C148_paths_solve h Ex16.lagsNotExpected Ex16.self_ne (Nat.zero_le 3) (show 2 ≤ 5 by omega) 0 Ex16.shock3 _ hX
  have hXe : Spec.RuleEquilibrium (Spec.asSolved Ex16.decl) (lagVal Ex16.lay (0 : Fin 1 ⊕ Bool → Rat)) Ex16.shock3
      (Spec.declared Ex16.lay X) := by
    refine ⟨hsol.eqs, fun s => ?_⟩
    by_cases hb : BindsAt 0 2 s
    · have e : Spec.declared Ex16.lay X s Ex16.decl.cvar = -1 := hsol.binding s hb
      refine e.trans ?_
      rw [Ex16.rule_eq, hy, eq_comm]
      refine max_eq_left ?_
      show _ ≤ (-1 : Rat)
      unfold BindsAt at hb
      have := Ex16.pow_half_le (show s ≤ 1 by omega)
      linarith
    · have e := (rule_iff (D := Spec.asSolved Ex16.decl) Ex16.self_ne _ _ (Spec.declared Ex16.lay X) s).2 (hsol.slack s hb)
      refine e.trans (max_eq_right ?_).symm
      rw [Ex16.rule_eq, hy]
      show (-1 : Rat) ≤ _
      unfold BindsAt at hb
      have := Ex16.pow_half_le (show 2 ≤ s by omega)
      norm_num at this ⊢
      linarith
  refine ⟨mod, _, X, h, Ex16.noReversalOf, fun t => (shocksAt_iff _ _ _).2 ?_, hr, rfl, hX, hXe, fun t => ?_⟩
  · funext e
    cases t with
    | zero => cases e <;> simp [shkVec, Ex16.shock3, shockAt]
    | succ t =>
      have : ¬ (0 : Int) = ((t : Int) + 1) := by omega
      cases e <;> simp [shkVec, Ex16.shock3, shockAt, this]
  · have hX' := C15_restart hX t
    have hXe' := equilibrium_later h Ex16.lagsNotExpected (Nat.zero_le 3) (show 2 ≤ 5 by omega) hX hXe t
    have hyt : X t (.inr false) = -3 * (1/2) ^ t := (Ex16.lay.val_z (X t) false).symm.trans (hy t)
    cases t with
    | zero =>
      have e : elapsed 0 2 (0 + 1) = (0, 1) := by decide
      rw [e] at hX'
      have hr' := Ex16.run_some h (by omega) (show 1 ≤ 5 by omega) (by omega) (st := X 0) (eps := 0) (a := -3/2) (by rw [hyt]; norm_num)
        (by norm_num) (by norm_num) (by norm_num) hX'
      exact ⟨_, _, hr', hX', hXe'⟩
    | succ t =>
      have e : elapsed 0 2 (t + 1 + 1) = (0, 0) := by
        unfold elapsed
        split_ifs <;> first | omega | (refine Prod.ext ?_ ?_ <;> simp)
      rw [e] at hX'
      have hr' := Ex16.run_none h (by omega) (by omega) (st := X (t + 1)) (eps := 0) (by
        rw [hyt, pow_succ]
        have := Ex16.pow_half_le (Nat.zero_le t)
        norm_num at this ⊢
        linarith) hX'
      exact ⟨_, _, hr', hX', hXe'⟩

/-- **C186**: the hypotheses are met, and the constraint does move a variable: after the shock `-3` the spell lasts two periods, and `w` is `1`
instead of the `3/2` of the linear model. -/
theorem C186_hypotheses_met : ∃ mod r r', Succeeded Ex16.lay Ex16.orc 3 5 (serial 5) mod ∧
    (∀ t, Spec.Lowers Ex16.lay mod 1 t ∧ Spec.Raises Ex16.lay mod 2 t) ∧
    tFunc mod 0 Ex16.shock3 .none false = .ok r ∧ r.flag = 0 ∧ r.l = 0 ∧ r.k = 2 ∧ tFunc mod 0 Ex16.shock3 .none true = .ok r' ∧
    Ex16.lay.val r.state (.inl 1) = 1 ∧ Ex16.lay.val r'.state (.inl 1) = 3/2 ∧
    ∃ X, ExpectedPath mod 0 2 0 Ex16.shock3 X ∧ Spec.Genuine Ex16.lay 0 Ex16.shock3 X 0 2 := by
  obtain ⟨mod, h⟩ := Ex16.succeeds 3 5 (Ex16.serial_perm 3 5)
  obtain ⟨c, hm⟩ := genSys_ok h.perm h.gen
  have hz := h.states
  have hf := noLagFwd_of_not_expected (Z0 := fun (_ : Fin 1) (v : Fin 3) => if v = 0 then (1 : Rat) else 0)
    (Z1 := fun _ => 0) Ex16.lagsNotExpected
  have hX := (expectedPath_iff hm h.orc h.noTiny h.square h.states hf (Nat.zero_le 3) (show 2 ≤ 5 by omega) 0 Ex16.shock3
    (xPath c 0 2 (q0Of 0 Ex16.shock3))).2 fun _ => rfl
  obtain ⟨Y, hY⟩ := linear_expectedPath hm 0 Ex16.shock3
  have hr := Ex16.run_some h (by omega) (show 2 ≤ 5 by omega) (by omega) (st := 0) (eps := Ex16.shock3) (a := -3) (by simp [Ex16.shock3])
    (by norm_num) (by norm_num) (by norm_num) hX
  obtain ⟨r', g1, g2⟩ := hY 0
  rw [elapsed_zero] at g1
  have hl1 : lagVal Ex16.lay (0 : Fin 1 ⊕ Bool → Rat) 1 = 0 := by
    unfold lagVal
    rw [if_neg (Ex16.not_inall 1)]
    exact Ex16.lay.val_z 0 true
  have hsX := C148_paths_solve h Ex16.lagsNotExpected Ex16.self_ne (Nat.zero_le 3) (show 2 ≤ 5 by omega) 0 Ex16.shock3 _ hX
  have hsY := C148_paths_solve h Ex16.lagsNotExpected Ex16.self_ne (Nat.zero_le 3) (Nat.zero_le 5) 0 Ex16.shock3 _ hY
  refine ⟨mod, _, r', h, fun t => ⟨Ex16.lowers_w t, Ex16.raises_r t⟩, hr, rfl, rfl, rfl, g1, ?_, ?_, _, hX,
    genuine_of_short h (by omega) Ex16.lagsNotExpected Ex16.self_ne hr rfl le_rfl hX⟩
  · have e1 := (Ex16.path_eqs h (Nat.zero_le 3) (show 2 ≤ 5 by omega) hX 0).2
    have e2 : Spec.declared Ex16.lay (xPath c 0 2 (q0Of 0 Ex16.shock3)) 1 2 = -1 := hsX.binding 1 ⟨by omega, by omega⟩
    simp only [prev, hl1, shockAt, Ex16.shock3, Nat.zero_add] at e1
    refine e1.trans ?_
    rw [e2]
    norm_num
  · have e1 := (Ex16.path_eqs h (Nat.zero_le 3) (Nat.zero_le 5) hY 0).2
    have e3 : Spec.declared Ex16.lay Y 1 2 = Spec.declared Ex16.lay Y 1 0 := by
      have := (rule_iff (D := Spec.asSolved Ex16.decl) Ex16.self_ne _ _ (Spec.declared Ex16.lay Y) 1).2 (hsY.slack 1 (by unfold BindsAt; omega))
      rw [Ex16.rule_eq] at this
      exact this
    have e4 := Ex16.path_y h (Nat.zero_le _) (Nat.zero_le _) hY 1
    simp only [prev, hl1, shockAt, Ex16.shock3, Nat.zero_add] at e1
    rw [← g2]
    refine e1.trans ?_
    rw [e3, e4, show Ex16.shock3 false = -3 from rfl]
    norm_num

end Pydsge
