import Verif.Model.Stats
import Verif.Props.Irfs
import Verif.Props.Sim
import Verif.Props.SolutionEx
import Verif.Examples.Ex1Run
import Verif.Examples.Ex3Run

/-!
# C56-C58, C78: decompositions
-/

set_option autoImplicit false
set_option linter.unusedSectionVars false
set_option linter.unusedSimpArgs false

namespace Pydsge

open Matrix Pydsge.Engine Pydsge.Spec Pydsge.Tools Pydsge.GenSys Pydsge.Stats

section
variable {z ε p o K : Type} [Fintype z] [Fintype ε] [Fintype p] [Fintype o] [DecidableEq z] [DecidableEq ε] [DecidableEq p]
  [Field K] [LinearOrder K] [IsStrictOrderedRing K]

/-! ## C56 -/

namespace Spec

/-- `a` is the state in period `horizon` (the first period is 1) after a shock of this size to `e` in the first period. -/
def Response (mod : Model z ε p o K) (st : p ⊕ z → K) (linear : Bool) (horizon : Nat) (e : ε) (size : K) (a : p ⊕ z → K) : Prop :=
  ∃ xs x, irfs mod ⟨[(e, size, 0)], .bool false, true, linear⟩ st horizon = .ok xs ∧ 1 ≤ horizon ∧ xs[horizon - 1]? = some x ∧ x.state = a

/-- In this draw, shock `e` moves variable `v`: the responses with and without the shock differ in the last period. -/
def Moves (linear : Bool) (horizon : Nat) (d : Draw z ε p o K) (e : ε) (v : p ⊕ z) : Prop :=
  ∃ a b, Response d.mod d.state linear horizon e (d.resid e) a ∧ Response d.mod d.state linear horizon e 0 b ∧ a v ≠ b v

end Spec

theorem lastIrf_iff (d : Draw z ε p o K) (linear : Bool) (horizon : Nat) (e : ε) (size : K) (a : p ⊕ z → K) :
    lastIrf d linear horizon e size = .ok a ↔ Spec.Response d.mod d.state linear horizon e size a := by
  unfold lastIrf Spec.Response
  rw [show forceDefault none (.bool false) = true from rfl]
  cases hi : irfs d.mod ⟨[(e, size, 0)], .bool false, true, linear⟩ d.state horizon with
  | error err => simp
  | ok xs =>
    have hl : xs.length = horizon := (irfRun_steps hi).1
    simp only [Except.ok.injEq, exists_eq_left']
    rw [List.getLast?_eq_getElem?, hl]
    rcases Nat.eq_zero_or_pos horizon with h0 | h0
    · subst h0
      rw [List.length_eq_zero_iff.1 hl]
      simp
    · rw [List.getElem?_eq_getElem (by omega)]
      simp only [Option.some.injEq, Except.ok.injEq]
      exact ⟨fun h => ⟨xs, xs[horizon - 1], rfl, h0, List.getElem?_eq_getElem (by omega), h⟩, fun ⟨ys, x, h1, _, h2, h3⟩ => by
        subst h1
        rw [List.getElem?_eq_getElem (by omega), Option.some.injEq] at h2
        rw [h2]; exact h3⟩

theorem addShocks_ok (d : Draw z ε p o K) (linear : Bool) (horizon : Nat) : ∀ (es : List ε) (g g' : ε → p ⊕ z → K),
    addShocks d linear horizon es g = .ok g' → (∀ e v, g e v ≤ g' e v) ∧
      (∀ e ∈ es, ∀ v, Spec.Moves linear horizon d e v → g e v < g' e v) ∧
      (∀ v, (∀ e, ¬ Spec.Moves linear horizon d e v) → ∀ e, g' e v = g e v)
  | [], g, g', h => by
    simp only [addShocks, Except.ok.injEq] at h
    subst h
    simp
  | x :: es, g, g', h => by
    unfold addShocks at h
    unfold sqDiff at h
    cases ha : lastIrf d linear horizon x (d.resid x) with
    | error e => simp [ha] at h
    | ok a =>
      cases hb : lastIrf d linear horizon x 0 with
      | error e => simp [ha, hb] at h
      | ok b =>
        simp only [ha, hb] at h
        obtain ⟨h1, h2, h3⟩ := addShocks_ok d linear horizon es _ _ h
        have hle : ∀ e v, g e v ≤ Function.update g x (g x + fun v => (a v - b v) ^ 2) e v := by
          intro e v
          by_cases he : e = x
          · subst he
            simp only [Function.update_self, Pi.add_apply]
            linarith [sq_nonneg (a v - b v)]
          · rw [Function.update_of_ne he]
        refine ⟨fun e v => (hle e v).trans (h1 e v), ?_, ?_⟩
        · intro e he v hm
          by_cases hx : e = x
          · subst hx
            refine lt_of_lt_of_le ?_ (h1 e v)
            simp only [Function.update_self, Pi.add_apply]
            obtain ⟨a', b', ha', hb', hne⟩ := hm
            rw [← lastIrf_iff, ha] at ha'
            rw [← lastIrf_iff, hb] at hb'
            cases ha'
            cases hb'
            have : 0 < (a v - b v) ^ 2 := by
              have := sub_ne_zero.2 hne
              positivity
            linarith
          · exact lt_of_le_of_lt (hle e v) (h2 e ((List.mem_cons.1 he).resolve_left hx) v hm)
        · intro v hv e
          rw [h3 v hv e]
          by_cases hx : e = x
          · subst hx
            simp only [Function.update_self, Pi.add_apply]
            have : a v = b v := by
              by_contra hne
              exact hv e ⟨a, b, (lastIrf_iff _ _ _ _ _ _).1 ha, (lastIrf_iff _ _ _ _ _ _).1 hb, hne⟩
            rw [this]
            simp
          · rw [Function.update_of_ne hx]

theorem addDraws_ok (shocks : List ε) (linear : Bool) (horizon : Nat) : ∀ (ds : List (Draw z ε p o K)) (g g' : ε → p ⊕ z → K),
    addDraws shocks linear horizon ds g = .ok g' → (∀ e v, g e v ≤ g' e v) ∧
      (∀ d ∈ ds, ∀ e ∈ shocks, ∀ v, Spec.Moves linear horizon d e v → g e v < g' e v) ∧
      (∀ v, (∀ d ∈ ds, ∀ e, ¬ Spec.Moves linear horizon d e v) → ∀ e, g' e v = g e v)
  | [], g, g', h => by
    simp only [addDraws, Except.ok.injEq] at h
    subst h
    simp
  | d :: ds, g, g', h => by
    unfold addDraws at h
    cases hs : addShocks d linear horizon shocks g with
    | error e => simp [hs] at h
    | ok g1 =>
      simp only [hs] at h
      obtain ⟨a1, a2, a3⟩ := addShocks_ok d linear horizon shocks g g1 hs
      obtain ⟨b1, b2, b3⟩ := addDraws_ok shocks linear horizon ds g1 g' h
      refine ⟨fun e v => (a1 e v).trans (b1 e v), ?_, ?_⟩
      · intro d' hd e he v hm
        rcases List.mem_cons.1 hd with rfl | hd
        · exact lt_of_lt_of_le (a2 e he v hm) (b1 e v)
        · exact lt_of_le_of_lt (a1 e v) (b2 d' hd e he v hm)
      · intro v hv e
        rw [b3 v (fun d' hd => hv d' (List.mem_cons_of_mem _ hd)) e, a3 v (hv d (List.mem_cons_self ..)) e]

/-- **C56.** `shocks` lists all shocks. For every variable that some shock moves in some draw, the shares are numbers between zero and one and
sum to one. The share of a shock that moves it is positive. All entries for any other variable are NaN. -/
theorem C56_shares (shocks : List ε) (hall : ∀ e, e ∈ shocks) (linear : Bool) (horizon : Nat) (sample : List (Draw z ε p o K))
    (vd : ε → p ⊕ z → Option K) (h : gfevd shocks linear horizon sample = .ok vd) (v : p ⊕ z) :
    ((∃ d ∈ sample, ∃ e, Spec.Moves linear horizon d e v) →
      ∃ w : ε → K, (∀ e, vd e v = some (w e)) ∧ (∀ e, 0 ≤ w e ∧ w e ≤ 1) ∧ ∑ e, w e = 1 ∧
        ∀ e, (∃ d ∈ sample, Spec.Moves linear horizon d e v) → 0 < w e) ∧
    ((∀ d ∈ sample, ∀ e, ¬ Spec.Moves linear horizon d e v) → ∀ e, vd e v = none) := by
  unfold gfevd at h
  cases hg : addDraws shocks linear horizon sample 0 with
  | error e => simp [hg] at h
  | ok g =>
    simp only [hg, Except.ok.injEq] at h
    subst h
    obtain ⟨h1, h2, h3⟩ := addDraws_ok shocks linear horizon sample 0 g hg
    have h0 : ∀ e, 0 ≤ g e v := fun e => h1 e v
    constructor
    · rintro ⟨d, hd, e, hm⟩
      have hpos : 0 < ∑ e', g e' v :=
        Finset.sum_pos' (fun i _ => h0 i) ⟨e, Finset.mem_univ e, h2 d hd e (hall e) v hm⟩
      refine ⟨fun e => g e v / ∑ e', g e' v, ?_, ?_, ?_, ?_⟩
      · intro e
        simp only [fdiv]
        rw [if_neg hpos.ne']
      · intro e
        refine ⟨div_nonneg (h0 e) hpos.le, ?_⟩
        rw [div_le_one hpos]
        exact Finset.single_le_sum (fun i _ => h0 i) (Finset.mem_univ e)
      · rw [← Finset.sum_div, div_self hpos.ne']
      · rintro e ⟨d, hd, hm⟩
        exact div_pos (h2 d hd e (hall e) v hm) hpos
    · intro hn e
      have : ∀ e', g e' v = 0 := fun e' => h3 v hn e'
      simp [fdiv, this]

/-! ## C57 -/

/-- What `t_func` returns is the cell of the equilibrium it reports, applied to states and shocks. -/
theorem tFunc_cell (m : Model z ε p o K) (st : p ⊕ z → K) (e : ε → K) (sk : SetK) (lin : Bool) (r : Step z p K)
    (h : tFunc m st e sk lin = .ok r) : ∃ c, m.tables.pq r.l r.k = some c ∧
      r.state = Sum.elim (c.pmat *ᵥ q0Of st e + c.pterm) (fun i => (c.qmat *ᵥ q0Of st e + c.qterm) (.inl i)) := by
  unfold tFunc tFuncRaw at h
  split_ifs at h with hz
  unfold tFuncJit at h
  dsimp only at h
  generalize (if (setLK lin sk).2 = -1 then findLk (checkCnst m.tables (Sum.elim (fun i => st (Sum.inr i)) e)) m.xbar m.tables.L m.tables.Kk
    else _) = lkf at h
  rcases lkf with err | ⟨l, k, flag⟩
  · simp at h
  · simp only at h
    cases hc : m.tables.pq l k with
    | none => simp [hc] at h
    | some c =>
      simp only [hc, Except.ok.injEq] at h
      subst h
      exact ⟨c, hc, rfl⟩

namespace Spec

/-- The linear part of the constraint's value in the first period of the equilibrium `(l, k)`. -/
def linPart (m : Model z ε p o K) (l k : Nat) (st : p ⊕ z → K) (e : ε → K) : K :=
  match m.tables.b l k 0 with
  | none => 0
  | some row => row.1 ⬝ᵥ q0Of st e

/-- Whenever the constraint binds in the expected path, the linear part of its value in the current period is not zero. -/
def NoCancel (m : Model z ε p o K) (lin : Bool) (X : List (p ⊕ z → K)) (es : List (ε → K)) : Prop :=
  ∀ (i : Nat) x e r, X[i]? = some x → es[i]? = some e → tFunc m x e .none lin = .ok r → r.k ≠ 0 → linPart m r.l r.k x e ≠ 0

end Spec

theorem sum_contribV (h : Hist z ε p K) (e : ε → K) (hs : ∀ i, ∑ s, h.hd s i = h.state i) :
    ∑ s, contribV h e s = q0Of h.state e := by
  funext i
  rw [Finset.sum_apply]
  rcases i with i | i
  · exact hs (.inr i)
  · simp only [contribV, Sum.elim_inr, q0Of]
    rw [Finset.sum_eq_single i]
    · simp
    · intro b _ hb
      simp [Pi.single_apply, hb.symm]
    · simp

theorem sum_mulVec {q r : Type} [Fintype q] (A : Matrix r q K) (v : ε → q → K) : ∑ s, A *ᵥ v s = A *ᵥ ∑ s, v s := by
  rw [Matrix.mulVec_sum]

theorem sum_base (c : Cell (z ⊕ ε) p K) (v : ε → z ⊕ ε → K) (q0 : z ⊕ ε → K) (hv : ∑ s, v s = q0) (i : p ⊕ z) :
    ∑ s, (Sum.elim (c.pmat *ᵥ v s) (fun i => (c.qmat *ᵥ v s) (.inl i)) : p ⊕ z → K) i =
      (Sum.elim (c.pmat *ᵥ q0) (fun i => (c.qmat *ᵥ q0) (.inl i)) : p ⊕ z → K) i := by
  subst hv
  rcases i with i | i
  · simp only [Sum.elim_inl]
    rw [← sum_mulVec, Finset.sum_apply]
  · simp only [Sum.elim_inr]
    rw [← sum_mulVec, Finset.sum_apply]

end

section
variable {E' ν H z ε p o K : Type} [Fintype E'] [Fintype ν] [Fintype H] [Fintype z] [Fintype ε] [Fintype p] [Fintype o] [DecidableEq E']
  [DecidableEq ν] [DecidableEq H] [DecidableEq z] [DecidableEq ε] [DecidableEq p] [Field K] [LinearOrder K] [IsStrictOrderedRing K]
variable {tol : K} {m : Input E' ν ε o K} [DecidablePred (inall tol m)] {lay : Layout tol m H z p}
  {orc : Oracle (Rows E' H ε) (z ⊕ ε) p K} {lMax kMax : Nat} {sched : Nat → List Nat} {mod : Model z ε p o K}

/-- Solved tables: no constant terms without a spell; cells are inside the tables and come with rows. -/
theorem solved_tables (h : Succeeded lay orc lMax kMax sched mod) {l k : Nat} {c : Cell (z ⊕ ε) p K} (hc : mod.tables.pq l k = some c) :
    l < mod.tables.L ∧ k < mod.tables.Kk ∧ (k = 0 → c.pterm = 0 ∧ c.qterm = 0) ∧ ∃ row, mod.tables.b l k 0 = some row := by
  obtain ⟨cc, hm⟩ := genSys_ok h.perm h.gen
  obtain ⟨M', hS⟩ := hm.eng
  have hb : l < lMax + 1 ∧ k < kMax + 1 := by
    by_contra hn
    rw [hS.complete.out l k hn] at hc
    cases hc
  have hcc := hS.complete.filled l k hb.1 hb.2
  rw [hc] at hcc
  obtain rfl := Option.some.inj hcc
  refine ⟨by rw [hS.shapeL]; exact hb.1, by rw [hS.shapeK]; exact hb.2, ?_, ?_⟩
  · rintro rfl
    rw [cells_l0 hS (sysOf_T12 h.orc).1 (h.orc.klein _ _ hm.kl) (by omega : l ≤ lMax)]
    exact ⟨rfl, rfl⟩
  · rw [hS.rows]
    simp only [hb, and_self, if_true]
    exact ⟨_, rfl⟩

/-- One period: contributions that add up keep adding up. -/
theorem histStep_ok (h : Succeeded lay orc lMax kMax sched mod) (lin : Bool) (hst : Hist z ε p K) (e : ε → K) (r : Step z p K)
    (hr : tFunc mod hst.state e .none lin = .ok r) :
    ∃ h', histStep mod lin hst e = .ok (h', r.l, r.k) ∧ h'.state = r.state ∧
      ((∀ i, ∑ s, hst.hd s i = hst.state i) → (r.k ≠ 0 → Spec.linPart mod r.l r.k hst.state e ≠ 0) →
        ∀ i, ∑ s, h'.hd s i = h'.state i) := by
  obtain ⟨c, hc, hstate⟩ := tFunc_cell mod _ _ _ _ _ hr
  obtain ⟨hl, hk, hterm, row, hrow⟩ := solved_tables h hc
  unfold histStep
  simp only [hr, if_pos (And.intro hl hk), hc]
  by_cases hk0 : r.k = 0
  · rw [if_pos hk0]
    refine ⟨_, rfl, rfl, ?_⟩
    intro hs _ i
    simp only
    rw [sum_base c _ _ (sum_contribV hst e hs), hstate]
    obtain ⟨h1, h2⟩ := hterm hk0
    rw [h1, h2]
    simp
  · rw [if_neg hk0]
    simp only [hrow]
    split_ifs with hz
    · refine ⟨_, rfl, rfl, ?_⟩
      intro hs hn
      exfalso
      apply hn hk0
      unfold Spec.linPart
      rw [hrow]
      simp only
      rw [← sum_contribV hst e hs, ← hz, ← dotProduct_sum]
    · refine ⟨_, rfl, rfl, ?_⟩
      intro hs _ i
      simp only [Pi.add_apply, Pi.smul_apply, smul_eq_mul]
      rw [Finset.sum_add_distrib, sum_base c _ _ (sum_contribV hst e hs), ← Finset.sum_mul, ← Finset.sum_div, div_self hz, one_mul, hstate]
      rcases i with i | i <;> simp

theorem histLoop_ok (h : Succeeded lay orc lMax kMax sched mod) (lin : Bool) : ∀ (es : List (ε → K)) (h0 : Hist z ε p K) (res : SimRes z p K),
    simLoop mod lin h0.state es = .ok res → ∃ hs, histLoop mod lin h0 es = .ok hs ∧ h0.state :: hs.map Hist.state = res.X ∧
      ((∀ i, ∑ s, h0.hd s i = h0.state i) → Spec.NoCancel mod lin res.X es → ∀ g ∈ hs, ∀ i, ∑ s, g.hd s i = g.state i)
  | [], h0, res, hr => by
    simp only [simLoop, Except.ok.injEq] at hr
    subst hr
    exact ⟨[], rfl, rfl, by simp⟩
  | e :: es, h0, res, hr => by
    unfold simLoop at hr
    cases ht : tFunc mod h0.state e .none lin with
    | error err => simp [ht] at hr
    | ok r =>
      simp only [ht] at hr
      obtain ⟨h', h1, h2, h3⟩ := histStep_ok h lin h0 e r ht
      cases hl : simLoop mod lin r.state es with
      | error err => simp [hl] at hr
      | ok res' =>
        simp only [hl, Except.ok.injEq] at hr
        subst hr
        rw [← h2] at hl
        obtain ⟨hs, g1, g2, g3⟩ := histLoop_ok h lin es h' res' hl
        refine ⟨h' :: hs, ?_, ?_, ?_⟩
        · unfold histLoop
          simp only [h1, g1]
        · simp only [List.map_cons, g2]
        · intro ha hn
          have hh' := h3 ha (hn 0 h0.state e r rfl rfl ht)
          intro g hg
          rcases List.mem_cons.1 hg with rfl | hg
          · exact hh'
          · refine g3 hh' ?_ g hg
            intro i x e' r' hx he
            exact hn (i+1) x e' r' (by simpa using hx) (by simpa using he)

/-- **C57 (one sample, partial).** `nhd` simulates the model, and the contributions add up to the state in all periods, provided that the linear part
of the constraint's value does not vanish in a period with a spell. Missing: periods in which it does. -/
theorem C57_sample_partial [Nonempty ε] (T : Nat) (lin : Bool) (s : Sample z ε p o K) (h : Succeeded lay orc lMax kMax sched s.mod)
    (res : SimRes z p K) (hr : simLoop s.mod lin s.init s.resid = .ok res) (hT : s.resid.length + 1 = T) :
    ∃ hs, histSample T lin s = .ok hs ∧ hs.map Hist.state = res.X ∧
      (Spec.NoCancel s.mod lin res.X s.resid → ∀ g ∈ hs, ∀ i, ∑ e, g.hd e i = g.state i) := by
  obtain ⟨hs, h1, h2, h3⟩ := histLoop_ok h lin s.resid (histInit s.init) res hr
  have hlen : hs.length = s.resid.length := by
    obtain ⟨fl, hI, _⟩ := C19_simulate_iterates s.mod lin s.init s.resid res hr
    have := congrArg List.length h2
    simp only [List.length_cons, List.length_map] at this
    have := hI.lenX
    omega
  have hcard : (Fintype.card ε : K) ≠ 0 := by
    have := Fintype.card_ne_zero (α := ε)
    exact_mod_cast this
  have hinit : ∀ i, ∑ e : ε, (histInit (ε := ε) s.init).hd e i = (histInit (ε := ε) s.init).state i := by
    intro i
    simp only [histInit, Finset.sum_const, Finset.card_univ, nsmul_eq_mul]
    exact mul_div_cancel₀ _ hcard
  refine ⟨histInit s.init :: hs, ?_, ?_, ?_⟩
  · unfold histSample
    rw [if_neg (by omega : ¬ T = 0)]
    simp only [h1]
    rw [if_neg (by omega), if_neg (by omega)]
  · simpa using h2
  · intro hn g hg
    rcases List.mem_cons.1 hg with rfl | hg
    · exact hinit
    · exact h3 hinit hn g hg

theorem mapM_forall₂ {α β : Type} (f : α → Except PyErr β) : ∀ (xs : List α) (ys : List β), xs.mapM f = .ok ys →
    List.Forall₂ (fun x y => f x = .ok y) xs ys
  | [], ys, h => by
    simp only [List.mapM_nil] at h
    cases h
    exact .nil
  | x :: xs, ys, h => by
    rw [List.mapM_cons] at h
    cases hx : f x with
    | error e => rw [hx] at h; cases h
    | ok y =>
      rw [hx] at h
      cases hxs : xs.mapM f with
      | error e => rw [hxs] at h; cases h
      | ok ys' =>
        rw [hxs] at h
        cases h
        exact .cons hx (mapM_forall₂ f xs ys' hxs)

end

section
variable {z ε p o K : Type} [Fintype z] [Fintype ε] [Fintype p] [Fintype o] [DecidableEq z] [DecidableEq ε] [DecidableEq p]
  [Field K] [LinearOrder K] [IsStrictOrderedRing K]

/-- **C57 (averages).** If the contributions add up in every sample (C57_sample_partial), the averages that `nhd` returns add up. -/
theorem C57_average (T : Nat) (lin : Bool) (samples : List (Sample z ε p o K)) (hd : ε → Nat → p ⊕ z → K) (means : Nat → p ⊕ z → K)
    (h : nhd T lin samples = .ok (hd, means))
    (hadd : ∀ s ∈ samples, ∀ hs, histSample T lin s = .ok hs → ∀ g ∈ hs, ∀ i, ∑ e, g.hd e i = g.state i) (t : Nat) (i : p ⊕ z) :
    ∑ e, hd e t i = means t i := by
  unfold nhd at h
  cases hx : samples.mapM (histSample T lin) with
  | error e => simp [hx] at h
  | ok xs =>
    simp only [hx, Except.ok.injEq, Prod.mk.injEq] at h
    obtain ⟨rfl, rfl⟩ := h
    have hxs : ∀ hs ∈ xs, ∀ g ∈ hs, ∀ i, ∑ e, g.hd e i = g.state i := by
      have hF := mapM_forall₂ _ _ _ hx
      clear hx
      induction hF with
      | nil => simp
      | @cons s hs ss xs' h1 h2 ih =>
        intro hs' hmem
        rcases List.mem_cons.1 hmem with rfl | hmem
        · exact hadd s (List.mem_cons_self ..) _ h1
        · exact ih (fun s' hs' => hadd s' (List.mem_cons_of_mem _ hs')) _ hmem
    simp only [sampleMean]
    rw [← Finset.sum_div]
    congr 1
    clear hx
    induction xs with
    | nil => simp
    | cons x xs ih =>
      simp only [List.map_cons, List.sum_cons, Finset.sum_add_distrib]
      rw [ih (fun hs hm => hxs hs (List.mem_cons_of_mem _ hm))]
      congr 1
      cases hg : x[t]? with
      | none => simp
      | some g =>
        simp only
        exact hxs x (List.mem_cons_self ..) g (List.mem_of_getElem? hg) i

namespace Spec

/-- The model is one that `gen_sys` solved, for some declarations, external routines, table sizes and schedule. -/
def IsSolved (mod : Model z ε p o K) : Prop :=
  ∃ (E' ν H : Type) (_ : Fintype E') (_ : Fintype ν) (_ : Fintype H) (_ : DecidableEq E') (_ : DecidableEq ν) (_ : DecidableEq H) (tol : K)
    (m : Input E' ν ε o K) (_ : DecidablePred (inall tol m)) (lay : Layout tol m H z p) (orc : Oracle (Rows E' H ε) (z ⊕ ε) p K)
    (lMax kMax : Nat) (sched : Nat → List Nat), Succeeded lay orc lMax kMax sched mod

end Spec

/-- **C57 (partial), all samples together.** Each sample has a solved model, a simulation from its initial state that is defined, and residuals for
all periods but the first. Then `nhd` returns, the means it returns are those of the simulated states, and the contributions add up to them in
every period, provided that in no sample the linear part of the constraint's value vanishes in a period with a spell. -/
theorem C57_nhd_partial [Nonempty ε] (T : Nat) (lin : Bool) (samples : List (Sample z ε p o K)) (sims : Sample z ε p o K → SimRes z p K)
    (hsolved : ∀ s ∈ samples, Spec.IsSolved s.mod)
    (hsim : ∀ s ∈ samples, simLoop s.mod lin s.init s.resid = .ok (sims s) ∧ s.resid.length + 1 = T) :
    ∃ hd means, nhd T lin samples = .ok (hd, means) ∧
      (∀ t i, means t i = (samples.map fun s => (((sims s).X[t]?).map (· i)).getD 0).sum / (samples.length : K)) ∧
      ((∀ s ∈ samples, Spec.NoCancel s.mod lin (sims s).X s.resid) → ∀ t i, ∑ e, hd e t i = means t i) := by
  have hone : ∀ s ∈ samples, ∃ hs, histSample T lin s = .ok hs ∧ hs.map Hist.state = (sims s).X ∧
      (Spec.NoCancel s.mod lin (sims s).X s.resid → ∀ g ∈ hs, ∀ i, ∑ e, g.hd e i = g.state i) := by
    intro s hs
    obtain ⟨E', ν, H, _, _, _, _, _, _, tol, m, _, lay, orc, lMax, kMax, sched, h⟩ := hsolved s hs
    exact C57_sample_partial T lin s h (sims s) (hsim s hs).1 (hsim s hs).2
  have hmap : ∀ l : List (Sample z ε p o K), (∀ s ∈ l, s ∈ samples) → ∃ xs, l.mapM (histSample T lin) = .ok xs ∧
      xs.map (·.map Hist.state) = l.map (fun s => (sims s).X) := by
    intro l
    induction l with
    | nil => intro _; exact ⟨[], rfl, rfl⟩
    | cons s l ih =>
      intro hl
      obtain ⟨hs, h1, h2, _⟩ := hone s (hl s (List.mem_cons_self ..))
      obtain ⟨xs, h3, h4⟩ := ih fun s' h' => hl s' (List.mem_cons_of_mem _ h')
      refine ⟨hs :: xs, ?_, ?_⟩
      · rw [List.mapM_cons, h1, h3]; rfl
      · rw [List.map_cons, List.map_cons, h2, h4]
  obtain ⟨xs, hx, hX⟩ := hmap samples fun _ h => h
  have hn : nhd T lin samples =
      .ok (fun s t i => sampleMean xs t (fun h => h.hd s i), fun t i => sampleMean xs t (fun h => h.state i)) := by
    unfold nhd
    rw [hx]
  refine ⟨_, _, hn, ?_, ?_⟩
  · intro t i
    have hlen : xs.length = samples.length := by simpa using congrArg List.length hX
    have e1 : ∀ hs : List (Hist z ε p K), (match hs[t]? with
        | some h => h.state i
        | none => 0) = (((hs.map Hist.state)[t]?).map (· i)).getD 0 := by
      intro hs
      rw [List.getElem?_map]
      cases hs[t]? <;> rfl
    have e2 : (xs.map fun hs => (((hs.map Hist.state)[t]?).map (· i)).getD (0 : K)) =
        samples.map fun s => (((sims s).X[t]?).map (· i)).getD 0 := by
      have := congrArg (List.map fun X : List (p ⊕ z → K) => ((X[t]?).map (· i)).getD (0 : K)) hX
      simpa only [List.map_map, Function.comp_def] using this
    simp only [sampleMean, hlen]
    rw [← e2]
    congr 2
    exact List.map_congr_left fun hs _ => e1 hs
  · intro hnc t i
    refine C57_average T lin samples _ _ hn ?_ t i
    intro s hs hist hh
    obtain ⟨hs', h1, _, h3⟩ := hone s hs
    rw [h1] at hh
    cases hh
    exact h3 (hnc s hs)

/-! ## C58 -/

/-- Sum of the positive (negative) contributions among the first `n`. -/
def Spec.posSum (hd : List K) (n : Nat) : K := ((hd.take n).map fun h => max h 0).sum
def Spec.negSum (hd : List K) (n : Nat) : K := ((hd.take n).map fun h => min h 0).sum

theorem bands_fold (hd : List K) : ∀ (n : Nat), n ≤ hd.length →
    (hd.take n).foldl bandStep ⟨0, 0, [], []⟩ = ⟨Spec.negSum hd n, Spec.posSum hd n,
      (List.range n).map fun i => (Spec.negSum hd i, Spec.negSum hd (i+1)), (List.range n).map fun i => (Spec.posSum hd i, Spec.posSum hd (i+1))⟩
  | 0, _ => by simp [Spec.negSum, Spec.posSum]
  | n + 1, hn => by
    have ht : hd.take (n+1) = hd.take n ++ [hd[n]] := by
      rw [List.take_add_one, List.getElem?_eq_getElem (by omega)]
      rfl
    have hp : Spec.posSum hd (n+1) = Spec.posSum hd n + if hd[n] > 0 then hd[n] else 0 := by
      unfold Spec.posSum
      rw [ht, List.map_append, List.sum_append]
      congr 1
      simp only [List.map_cons, List.map_nil, List.sum_cons, List.sum_nil, add_zero]
      split_ifs with h
      · exact max_eq_left h.le
      · exact max_eq_right (not_lt.1 h)
    have hm : Spec.negSum hd (n+1) = Spec.negSum hd n + if hd[n] < 0 then hd[n] else 0 := by
      unfold Spec.negSum
      rw [ht, List.map_append, List.sum_append]
      congr 1
      simp only [List.map_cons, List.map_nil, List.sum_cons, List.sum_nil, add_zero]
      split_ifs with h
      · exact min_eq_left h.le
      · exact min_eq_right (not_lt.1 h)
    rw [ht, List.foldl_append, bands_fold hd n (by omega)]
    simp only [List.foldl_cons, List.foldl_nil, bandStep]
    rw [← hp, ← hm]
    simp [List.range_succ]

/-- **C58.** For each of the contributions there is a positive and a negative band. The edges of band `i` are the sums of the positive (negative)
contributions before `i` and up to `i`. -/
theorem C58_bands (hd : List K) (hne : hd ≠ []) : ∃ mint maxt, sortNhd hd = .ok (mint, maxt) ∧ mint.length = hd.length ∧
    maxt.length = hd.length ∧
    (∀ i < hd.length, maxt[i]? = some (Spec.posSum hd i, Spec.posSum hd (i+1)) ∧ mint[i]? = some (Spec.negSum hd i, Spec.negSum hd (i+1))) := by
  have := bands_fold hd hd.length le_rfl
  rw [List.take_length] at this
  unfold sortNhd
  rw [if_neg hne, this]
  refine ⟨_, _, rfl, by simp, by simp, ?_⟩
  intro i hi
  simp [hi]

/-- The edges start at zero, positive ones never fall and negative ones never rise (so that bands do not overlap), each band is as wide as its
contribution, and the outer edges add up to the total. -/
theorem C58_edges (hd : List K) : Spec.posSum hd 0 = 0 ∧ Spec.negSum hd 0 = 0 ∧
    (∀ i h, hd[i]? = some h → Spec.posSum hd i ≤ Spec.posSum hd (i+1) ∧ Spec.negSum hd (i+1) ≤ Spec.negSum hd i ∧
      (Spec.posSum hd (i+1) - Spec.posSum hd i) + (Spec.negSum hd (i+1) - Spec.negSum hd i) = h ∧
      (Spec.posSum hd (i+1) = Spec.posSum hd i ∨ Spec.negSum hd (i+1) = Spec.negSum hd i)) ∧
    Spec.posSum hd hd.length + Spec.negSum hd hd.length = hd.sum := by
  refine ⟨rfl, rfl, ?_, ?_⟩
  · intro i h hi
    have ht : hd.take (i+1) = hd.take i ++ [h] := by
      rw [List.take_add_one, hi]
      rfl
    have hp : Spec.posSum hd (i+1) = Spec.posSum hd i + max h 0 := by
      unfold Spec.posSum
      simp [ht]
    have hm : Spec.negSum hd (i+1) = Spec.negSum hd i + min h 0 := by
      unfold Spec.negSum
      simp [ht]
    rw [hp, hm]
    rcases le_total h 0 with h0 | h0
    · rw [max_eq_right h0, min_eq_left h0]
      refine ⟨by linarith, by linarith, by ring, Or.inl (by ring)⟩
    · rw [max_eq_left h0, min_eq_right h0]
      refine ⟨by linarith, by linarith, by ring, Or.inr (by ring)⟩
  · unfold Spec.posSum Spec.negSum
    rw [List.take_length]
    induction hd with
    | nil => simp
    | cons h hs ih =>
      simp only [List.map_cons, List.sum_cons]
      have := max_add_min h 0
      linarith

example : sortNhd [(2 : Rat), -1, 3, -4] = .ok ([(0, 0), (0, -1), (-1, -1), (-1, -5)], [(0, 2), (2, 2), (2, 5), (5, 5)]) := by decide +kernel

/-! ## C78 -/

/-- **C78 (partial).** The product that `mbcs_index` starts with exists exactly if the model has no state variables. Missing: all other models. -/
theorem C78_no_states_partial (mod : Model z ε p o K) :
    mbcsShape mod = .ok (Fintype.card o, Fintype.card ε) ↔ IsEmpty z := by
  unfold mbcsShape matmulShape
  rw [← Fintype.card_eq_zero_iff, Fintype.card_sum]
  constructor
  · intro h
    split_ifs at h with h1
    simp only at h1
    omega
  · intro h
    rw [if_pos (by simp only; omega)]

/-- **C78 (negation).** `mbcs_index` fails for every model with state variables, whatever `vd` is. -/
theorem C78_mbcs_refuted (mod : Model z ε p o K) [Nonempty z] : mbcsShape mod = .error .valueError := by
  unfold mbcsShape matmulShape
  have := Fintype.card_ne_zero (α := z)
  rw [if_neg (by simp only [Fintype.card_sum]; omega)]

end

section
variable {K : Type} [Field K] [LinearOrder K]

theorem arrayTruth_long {xs : List K} (h : 2 ≤ xs.length) : arrayTruth xs = .error .valueError := by
  match xs, h with
  | _ :: _ :: _, _ => rfl

/-- **C79 (negation).** `post_mean` fails for every given chain with more than one number. -/
theorem C79_post_mean_refuted {n : Nat} (stored chain : Chain n K) (getTune : Int) (tune : Option Int)
    (h : 2 ≤ n * chain.flatten.length) : postMean stored getTune (some chain) tune = .error .valueError := by
  unfold postMean
  simp only
  rw [arrayTruth_long]
  have : (chain.flatten.flatMap fun x => List.ofFn x).length = n * chain.flatten.length := by
    generalize chain.flatten = xs
    rw [List.length_flatMap]
    simp [mul_comm]
  omega

/-- **C79 (partial).** Without a chain, `post_mean` returns the averages over all walkers of the last `tune` draws of the stored chain; `tune` is
the argument, or the stored number if it is missing. -/
theorem C79_post_mean_partial {n : Nat} (stored : Chain n K) (getTune : Int) (tune : Option Int) (t : Nat) (ht : 1 ≤ t)
    (htune : tune = some (t : Int) ∨ (tune = none ∧ getTune = t)) (hlen : t ≤ stored.length) :
    ∃ burn kept mean, stored = burn ++ kept ∧ kept.length = t ∧ postMean stored getTune none tune = .ok mean ∧
      ∀ j, mean j = (kept.flatten.map (· j)).sum / (kept.flatten.length : K) := by
  have hs : sliceFrom stored (-(t : Int)) = stored.drop (stored.length - t) := by
    unfold sliceFrom
    rw [if_neg (by omega)]
    simp
  refine ⟨stored.take (stored.length - t), stored.drop (stored.length - t), _, (List.take_append_drop _ _).symm, by simp; omega, rfl, ?_⟩
  intro j
  unfold chainMean
  rcases htune with rfl | ⟨rfl, rfl⟩
  · simp only [if_pos (by omega : (t : Int) ≠ 0), hs]
  · simp only [hs]

/-- `tune=0` is the same as no `tune`. -/
theorem C79_zero_tune {n : Nat} (stored : Chain n K) (getTune : Int) (chain : Option (Chain n K)) :
    postMean stored getTune chain (some 0) = postMean stored getTune chain none := by
  simp [postMean]

example : (postMean [[fun _ => 9], [fun _ => 1], [fun _ => 3]] 2 none none : Except PyErr (Fin 1 → Rat)).map (· 0) = .ok 2 := by decide +kernel
example : (postMean [[fun _ => 9], [fun _ => 1], [fun _ => 3]] 2 (some [[fun _ => 1], [fun _ => 2]]) none : Except PyErr (Fin 1 → Rat)).map (· 0) = .error .valueError := by decide +kernel

end

/-! ## The decomposition of Ex3, and Ex1 as an example -/

/-- **C57 (negation).** In the model `y = w(-1) - r(+1)`, `w = e`, `r = max(y, -1)`, a shock of `-2` makes the constraint bind in the next
period, which raises `y` to one. `nhd` attributes nothing of that to the only shock, so that its contributions do not add up. -/
theorem C57_refuted {sched : Nat → List Nat} {mod : Model (Fin 1) (Fin 1) Bool (Fin 1) Rat}
    (h : Succeeded Ex3.lay Ex3.orc 3 1 sched mod) :
    ∃ hd means, nhd 2 false [⟨mod, 0, [fun _ => -2]⟩] = .ok (hd, means) ∧ means 1 (.inl false) = 1 ∧ ∑ e, hd e 1 (.inl false) = 0 := by
  obtain ⟨r, hr, hl, hk, _, hst⟩ := Ex3.later_run h
  have hc := Ex3.pq11 h
  obtain ⟨row, hrow, hdot⟩ := Ex3.row11 h
  obtain ⟨b1, b2, _, _⟩ := solved_tables h hc
  have hv : ∀ s, contribV (histInit (0 : Bool ⊕ Fin 1 → Rat)) (fun _ : Fin 1 => -2) s (.inl 0) = 0 := by
    intro s
    simp [contribV, histInit]
  have hstep : ∃ g, histStep mod false (histInit 0) (fun _ => -2) = .ok (g, 1, 1) ∧ g.state = r.state ∧ ∀ s, g.hd s (.inl false) = 0 := by
    unfold histStep
    have hr' : tFunc mod (histInit (ε := Fin 1) (0 : Bool ⊕ Fin 1 → Rat)).state (fun _ => -2) .none false = .ok r := hr
    simp only [hr', hl, hk, if_pos (And.intro b1 b2), hc, one_ne_zero, if_false, hrow, hdot, hv, Finset.sum_const_zero, if_true]
    refine ⟨_, rfl, rfl, ?_⟩
    intro s
    simp [Ex3.c11, Ex3.c01, Ex3.next, mulVec, dotProduct, Fintype.sum_sum_type, contribV, histInit, Ex3.omg]
  obtain ⟨g, h1, h2, h3⟩ := hstep
  have hs : histSample 2 false ⟨mod, 0, [fun _ => -2]⟩ = .ok [histInit 0, g] := by
    unfold histSample
    simp [histLoop, h1]
  refine ⟨_, _, by unfold nhd; simp only [List.mapM_cons, List.mapM_nil, hs]; rfl, ?_, ?_⟩
  · simp [sampleMean, h2, hst]
  · simp [sampleMean, h3]

/-- The models of C57_refuted exist. -/
theorem ex3_succeeds (lMax kMax : Nat) : ∃ mod, Succeeded Ex3.lay Ex3.orc lMax kMax (serial kMax) mod :=
  Ex3.succeeds lMax kMax (Ex1.serial_perm lMax kMax)

theorem ex3_irf {mod : Model (Fin 1) (Fin 1) Bool (Fin 1) Rat} {size : Rat} {r : Step (Fin 1) Bool Rat}
    (hr : tFunc mod 0 (fun _ => size) .none false = .ok r) : lastIrf ⟨mod, 0, fun _ => -2⟩ false 1 0 size = .ok r.state := by
  have e : shkVec [((0 : Fin 1), size, (0 : Int))] 0 = fun _ => size := by
    funext i
    simp [shkVec, Subsingleton.elim i 0]
  unfold lastIrf
  simp [irfs, irfRun, irfStep, anyPeriod, setKEff, tooLong, tFunc_bool, e, hr]

/-- Non-vacuity of C56: a draw in which the shock moves a variable, and shares that exist. -/
example : ∃ mod, Succeeded Ex3.lay Ex3.orc 3 1 (serial 1) mod ∧ Spec.Moves false 1 ⟨mod, 0, fun _ => -2⟩ 0 (.inl false) ∧
    ∃ vd, gfevd [0] false 1 [⟨mod, 0, fun _ => -2⟩] = .ok vd := by
  obtain ⟨mod, h⟩ := ex3_succeeds 3 1
  obtain ⟨r, hr, _, _, _, hst⟩ := Ex3.later_run h
  obtain ⟨r', hr', hst', _⟩ := C10_steady_state_fixed_point h (by show (-1 : Rat) < 0; norm_num) false
  have h1 := ex3_irf hr
  have h0 := ex3_irf (size := 0) hr'
  refine ⟨mod, h, ⟨_, _, (lastIrf_iff _ _ _ _ _ _).1 h1, (lastIrf_iff _ _ _ _ _ _).1 h0, by simp [hst, hst']⟩, ?_⟩
  unfold gfevd
  simp [addDraws, addShocks, sqDiff, h1, h0]

/-- Non-vacuity of C57_sample_partial: a path in which the constraint binds at once, with contributions that add up. -/
example : ∃ mod res, Succeeded Ex1.lay Ex1.orc 3 1 (serial 1) mod ∧ simLoop mod false 0 [fun _ => -9/4] = .ok res ∧
    res.LK = [(0, 1)] ∧ Spec.NoCancel mod false res.X [fun _ => -9/4] := by
  obtain ⟨mod, h⟩ := ex1_succeeds 3 1
  obtain ⟨r, hr, hl, hk, _, _⟩ := Ex1.binding_run 3 1 le_rfl (by omega) h
  refine ⟨mod, _, h, by simp only [simLoop, hr]; rfl, by simp [hl, hk], ?_⟩
  intro i x e r' hx he hr' _
  rcases i with _ | i
  · simp only [List.getElem?_cons_zero, Option.some.injEq] at hx he
    subst hx he
    rw [hr] at hr'
    cases hr'
    obtain ⟨c, hm⟩ := genSys_ok h.perm h.gen
    obtain ⟨M', hS⟩ := hm.eng
    obtain ⟨c0, c1⟩ := Ex1.cells (b := -1) le_rfl hm
    have hrow : mod.tables.b 0 1 0 = some (rowAt (ff Ex1.lay) c 0 1 0) := by
      rw [hS.rows]
      rfl
    have hv : ∀ v : Ex1.Q → Rat, (rowAt (ff Ex1.lay) c 0 1 0).1 ⬝ᵥ v + (rowAt (ff Ex1.lay) c 0 1 0).2 = (Ex1.lam *ᵥ v) (.inl 0) := by
      intro v
      rw [rowAt_value]
      simp only [Ex1.fp1_eq, Ex1.fq0_eq, Ex1.fq1_eq, zero_dotProduct, qPath, locCell, lLoc, kLoc, Nat.sub_self, Nat.add_zero,
        Nat.sub_zero, Nat.min_self, c1, Ex1.cell01, add_zero]
      simp [dotProduct, Fintype.sum_sum_type]
    have h1 := hv (q0Of (0 : Fin 1 ⊕ Fin 1 → Rat) fun _ => -9/4)
    have h0 := hv 0
    simp only [dotProduct_zero, Pi.zero_apply, mulVec_zero, zero_add] at h0
    unfold Spec.linPart
    rw [hl, hk, hrow]
    simp only
    rw [h0, add_zero] at h1
    rw [h1]
    simp [mulVec, dotProduct, Fintype.sum_sum_type, Ex1.lam, q0Of]
  · simp at he

end Pydsge
