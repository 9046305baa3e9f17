import Verif.Props.Stability
import Verif.Props.Convex
import Mathlib.Algebra.Order.Group.MinMax

/-!
# C172: errors in the precomputed tables do not grow

The code computes with floating point numbers. Whatever the errors in the tables, the search compares numbers that are wrong by
at most as much, and so do the state and the constraint.
-/

set_option autoImplicit false
set_option linter.unusedSectionVars false
set_option linter.unusedSimpArgs false

namespace Pydsge

open Matrix Pydsge.Engine Pydsge.Spec Pydsge.Tools Pydsge.GenSys

/-! ## The search with other numbers -/

section Search
variable {K : Type} [Field K] [LinearOrder K] [IsStrictOrderedRing K]

/-- All comparisons with `xbar` that the search can make have the same outcome. -/
def SameSigns (v v' : Fin 5 → Nat → Nat → K) (xbar : K) (L Kk : Nat) : Prop :=
  ∀ i l k, l < L → k < Kk → (i = 1 → 0 < l) → (i = 3 → 0 < l + k) →
    ((xbar < v i l k ↔ xbar < v' i l k) ∧ (v i l k < xbar ↔ v' i l k < xbar))

variable {rd rd' : Reader K} {v v' : Fin 5 → Nat → Nat → K} {xbar : K} {L Kk : Nat}

theorem SameSigns.consistent (h : SameSigns v v' xbar L Kk) {l k : Nat} (hl : l < L) (hk : k < Kk) (hk1 : 1 ≤ k) :
    Consistent v xbar l k ↔ Consistent v' xbar l k := by
  have g : ∀ {v v' : Fin 5 → Nat → Nat → K}, SameSigns v v' xbar L Kk → Consistent v xbar l k → Consistent v' xbar l k := by
    intro v v' h hc
    refine ⟨hk1, fun a => ?_, fun a => ?_, ?_, ?_, fun a => ?_⟩
    · exact not_lt.1 fun b => not_lt.2 (hc.start a) ((h 0 l k hl hk (by simp) (by simp)).2.2 b)
    · exact not_lt.1 fun b => not_lt.2 (hc.before a) ((h 1 l k hl hk (fun _ => by omega) (by simp)).2.2 b)
    · exact not_lt.1 fun b => not_lt.2 hc.exit ((h 4 l k hl hk (by simp) (by simp)).2.2 b)
    · exact not_lt.1 fun b => not_lt.2 hc.first ((h 2 l k hl hk (by simp) (by simp)).1.2 b)
    · exact not_lt.1 fun b => not_lt.2 (hc.last a) ((h 3 l k hl hk (by simp) (fun _ => by omega)).1.2 b)
  exact ⟨g h, g fun i l k a b c d => ⟨(h i l k a b c d).1.symm, (h i l k a b c d).2.symm⟩⟩

theorem bruiteK_signs (hr : Reads rd v L Kk) (hr' : Reads rd' v' L Kk) (h : SameSigns v v' xbar L Kk) {l : Nat} (hl : l < L) (k : Nat)
    (hk1 : 1 ≤ k) : bruiteK rd xbar Kk l k = bruiteK rd' xbar Kk l k := by
  induction hn : Kk - k generalizing k with
  | zero => rw [bruiteK.eq_def rd, bruiteK.eq_def rd', if_neg (by omega), if_neg (by omega)]
  | succ n ih =>
    have hk : k < Kk := by omega
    rw [bruiteK.eq_def rd, bruiteK.eq_def rd', if_pos hk, if_pos hk, accepts_spec hr hl hk hk1, accepts_spec hr' hl hk hk1,
      decide_eq_decide.2 (h.consistent hl hk hk1), ih (k+1) (by omega) (by omega)]

theorem bruiteL_signs (hr : Reads rd v L Kk) (hr' : Reads rd' v' L Kk) (h : SameSigns v v' xbar L Kk) (l : Nat) :
    bruiteL rd xbar L Kk l = bruiteL rd' xbar L Kk l := by
  induction hn : L - l generalizing l with
  | zero => rw [bruiteL.eq_def rd, bruiteL.eq_def rd', if_neg (by omega), if_neg (by omega)]
  | succ n ih =>
    have hl : l < L := by omega
    rw [bruiteL.eq_def rd, bruiteL.eq_def rd', if_pos hl, if_pos hl, bruiteK_signs hr hr' h hl 1 le_rfl, ih (l+1) (by omega)]

theorem slackLoop_signs (hr : Reads rd v L Kk) (hr' : Reads rd' v' L Kk) (h : SameSigns v v' xbar L Kk) (hK : 0 < Kk) (l : Nat) :
    slackLoop rd xbar L l = slackLoop rd' xbar L l := by
  induction hn : L - l generalizing l with
  | zero => rw [slackLoop.eq_def rd, slackLoop.eq_def rd', if_neg (by omega), if_neg (by omega)]
  | succ n ih =>
    have hl : l < L := by omega
    have e := (h 2 l 0 hl hK (by simp) (by simp)).1
    rw [slackLoop.eq_def rd, slackLoop.eq_def rd', if_pos hl, if_pos hl, hr 2 l 0 hl hK (by simp) (by simp),
      hr' 2 l 0 hl hK (by simp) (by simp), ih (l+1) (by omega)]
    simp only [gt_iff_lt, sub_pos, e]

theorem approxLoop_signs (hr : Reads rd v L Kk) (hr' : Reads rd' v' L Kk) (h : SameSigns v v' xbar L Kk) (hL : 0 < L) (k : Nat)
    (lt : Bool) : approxLoop rd xbar Kk k lt = approxLoop rd' xbar Kk k lt := by
  induction hn : Kk - k generalizing k lt with
  | zero => rw [approxLoop.eq_def rd, approxLoop.eq_def rd', if_neg (by omega), if_neg (by omega)]
  | succ n ih =>
    by_cases hk : k + 1 < Kk
    · have e := h 4 0 (k+1) hL hk (by simp) (by simp)
      rw [approxLoop.eq_def rd, approxLoop.eq_def rd', if_pos hk, if_pos hk, hr 4 0 (k+1) hL hk (by simp) (by simp),
        hr' 4 0 (k+1) hL hk (by simp) (by simp)]
      simp only [gt_iff_lt, sub_pos, sub_neg, e.1, e.2, ih (k+1) _ (by omega)]
    · rw [approxLoop.eq_def rd, approxLoop.eq_def rd', if_neg hk, if_neg hk]

/-- The search only depends on the signs of the differences to `xbar`. -/
theorem findLk_signs (hr : Reads rd v L Kk) (hr' : Reads rd' v' L Kk) (h : SameSigns v v' xbar L Kk) (hL : 0 < L) (hK : 0 < Kk) :
    findLk rd xbar L Kk = findLk rd' xbar L Kk := by
  simp only [findLk, bruiteWrapper, slackLoop_signs hr hr' h hK, bruiteL_signs hr hr' h, approxLoop_signs hr hr' h hL]

end Search

/-! ## Tables with errors -/

/-- The tables `t'` differ from `t` by at most `d` in every entry. -/
structure Spec.CloseTables {q p K : Type} [Fintype q] [Field K] [LinearOrder K] (t t' : Tables q p K) (d : K) : Prop where
  shapeL : t'.L = t.L
  shapeK : t'.Kk = t.Kk
  cells : ∀ l k c, l < t.L → k < t.Kk → t.pq l k = some c → ∃ c', t'.pq l k = some c' ∧
    (∀ i j, |c'.pmat i j - c.pmat i j| ≤ d) ∧ (∀ i, |c'.pterm i - c.pterm i| ≤ d) ∧
    (∀ i j, |c'.qmat i j - c.qmat i j| ≤ d) ∧ (∀ i, |c'.qterm i - c.qterm i| ≤ d)
  rows : ∀ l k i row, l < t.L → k < t.Kk → t.b l k i = some row → ∃ row', t'.b l k i = some row' ∧
    (∀ j, |row'.1 j - row.1 j| ≤ d) ∧ |row'.2 - row.2| ≤ d

section Close
variable {q p K : Type} [Fintype q] [Field K] [LinearOrder K] [IsStrictOrderedRing K]

theorem affine_close {a a' : q → K} {b b' d : K} (ha : ∀ j, |a' j - a j| ≤ d) (hb : |b' - b| ≤ d) (x : q → K) :
    |(a' ⬝ᵥ x + b') - (a ⬝ᵥ x + b)| ≤ d * (1 + size1 x) := by
  have e : (a' ⬝ᵥ x + b') - (a ⬝ᵥ x + b) = (∑ j, (a' j - a j) * x j) + (b' - b) := by
    simp only [dotProduct, sub_mul, Finset.sum_sub_distrib]
    ring
  rw [e]
  refine (abs_add_le _ _).trans ?_
  have h1 : |∑ j, (a' j - a j) * x j| ≤ d * size1 x := by
    refine (Finset.abs_sum_le_sum_abs _ _).trans ?_
    unfold size1
    rw [Finset.mul_sum]
    refine Finset.sum_le_sum fun j _ => ?_
    rw [abs_mul]
    exact mul_le_mul_of_nonneg_right (ha j) (abs_nonneg _)
  linarith

theorem CloseTables_reads {t t' : Tables q p K} {d : K} (h : Spec.CloseTables t t' d) {v : Fin 5 → Nat → Nat → K} {q0 : q → K}
    (hr : Reads (checkCnst t q0) v t.L t.Kk) : ∃ v', Reads (checkCnst t' q0) v' t.L t.Kk ∧
      ∀ i l k, l < t.L → k < t.Kk → (i = 1 → 0 < l) → (i = 3 → 0 < l + k) → |v' i l k - v i l k| ≤ d * (1 + size1 q0) := by
  have key : ∀ i l k, l < t.L → k < t.Kk → (i = 1 → 0 < l) → (i = 3 → 0 < l + k) →
      ∃ x, checkCnst t' q0 i l k = .ok x ∧ |x - v i l k| ≤ d * (1 + size1 q0) := by
    intro i l k hl hk h1 h3
    have e := hr i l k hl hk h1 h3
    unfold checkCnst at e ⊢
    rw [if_pos ⟨hl, hk⟩] at e
    rw [h.shapeL, h.shapeK, if_pos ⟨hl, hk⟩]
    cases hb : t.b l k i with
    | none => rw [hb] at e; cases e
    | some row =>
      rw [hb] at e
      rw [← Except.ok.inj e]
      obtain ⟨row', hb', c1, c2⟩ := h.rows l k i row hl hk hb
      rw [hb']
      exact ⟨_, rfl, affine_close c1 c2 q0⟩
  refine ⟨fun i l k => match checkCnst t' q0 i l k with
    | .ok x => x
    | .error _ => 0, fun i l k hl hk h1 h3 => ?_, fun i l k hl hk h1 h3 => ?_⟩
  · obtain ⟨x, e, -⟩ := key i l k hl hk h1 h3
    simp only [e]
  · obtain ⟨x, e, e'⟩ := key i l k hl hk h1 h3
    simp only [e]
    exact e'

end Close

variable {E ν ε o K : Type} [Fintype E] [Fintype ν] [Fintype ε] [Fintype o]
  [DecidableEq E] [DecidableEq ν] [DecidableEq ε] [Field K] [LinearOrder K] [IsStrictOrderedRing K]
variable {H z p : Type} [DecidableEq H] [Fintype H] [Fintype z] [Fintype p] [DecidableEq z] [DecidableEq p]

section
variable {tol : K} {m : Input E ν ε o K} [DecidablePred (inall tol m)] {lay : Layout tol m H z p}
  {orc : Oracle (Rows E H ε) (z ⊕ ε) p K} {lMax kMax : Nat} {sched : Nat → List Nat} {mod : Model z ε p o K}
  {t' : Tables (z ⊕ ε) p K} {d : K}

/-- A step with tables that have errors: it succeeds, the search returns what it returns for some numbers close to the exact
ones, and the state is close to the exact state under the spell that was found. -/
theorem step_close (h : Succeeded lay orc lMax kMax sched mod) (hk1 : 1 ≤ kMax) (hc : Spec.CloseTables mod.tables t' d)
    {c : Nat → Nat → Cell (z ⊕ ε) p K} (hm : SolvedModel lay orc lMax kMax mod c) (st : p ⊕ z → K) (eps : ε → K) :
    ∃ v' r', Reads (checkCnst t' (q0Of st eps)) v' (lMax + 1) (kMax + 1) ∧
      (∀ i l k, l < lMax + 1 → k < kMax + 1 → (i = 1 → 0 < l) → (i = 3 → 0 < l + k) →
        |v' i l k - pathValue (ff lay) c (q0Of st eps) l k (slotPeriod l k i)| ≤ d * (1 + size1 (q0Of st eps))) ∧
      findLk (checkCnst t' (q0Of st eps)) m.xbar (lMax + 1) (kMax + 1) = .ok (r'.l, r'.k, r'.flag) ∧
      tFunc { mod with tables := t' } st eps .none false = .ok r' ∧ r'.l ≤ lMax ∧ r'.k ≤ kMax ∧
      ((r'.l = 0 ∧ r'.k = 0 ∧ r'.flag = 0 ∧ NeverBinds v' m.xbar (lMax + 1)) ∨ (r'.flag = 0 ∧ Consistent v' m.xbar r'.l r'.k) ∨
        (r'.l = 0 ∧ 0 < r'.k ∧ r'.flag ≠ 0)) ∧
      ∀ i, |r'.state i - xPath c r'.l r'.k (q0Of st eps) 0 i| ≤ d * (1 + size1 (q0Of st eps)) := by
  obtain ⟨M', hS⟩ := hm.eng
  have hst := h.states
  have hr := checkCnst_reads hS (q0Of st eps)
  rw [← hS.shapeL, ← hS.shapeK] at hr
  obtain ⟨v', hr', hv⟩ := CloseTables_reads hc hr
  rw [hS.shapeL, hS.shapeK] at hr' hv
  obtain ⟨l, k, flag, h1, h2, h3, h4⟩ := findLk_cases (xbar := m.xbar) hr' (by omega) (by omega)
  obtain ⟨c', e1, e2, e3, e4, e5⟩ := hc.cells l k (c l k) (by rw [hS.shapeL]; exact h2) (by rw [hS.shapeK]; exact h3)
    (hS.complete.filled l k h2 h3)
  have hz : ¬ (Fintype.card z = 0 ∧ Fintype.card p ≠ 0) := by
    have := Fintype.card_ne_zero (α := z); tauto
  refine ⟨v', ⟨fullState (c'.pmat *ᵥ q0Of st eps + c'.pterm) (c'.qmat *ᵥ q0Of st eps + c'.qterm), l, k, flag⟩, hr', hv, h1, ?_,
    by dsimp only; omega, by dsimp only; omega, h4, ?_⟩
  · unfold tFunc tFuncRaw
    rw [if_neg hz]
    simp only [setLK, Bool.false_eq_true, if_false]
    unfold tFuncJit
    simp only [if_true]
    rw [hc.shapeL, hc.shapeK, hS.shapeL, hS.shapeK, hm.xbar]
    rw [show (Sum.elim (fun i => st (Sum.inr i)) eps : z ⊕ ε → K) = q0Of st eps from rfl, h1]
    simp only [e1]
    rfl
  · intro i
    rw [xPath_zero]
    rcases i with j | i
    · exact affine_close (e2 j) (e3 j) (q0Of st eps)
    · exact affine_close (e4 (.inl i)) (e5 (.inl i)) (q0Of st eps)

theorem val_close (hE : Fintype.card E + 1 = Fintype.card ν) {a b : p ⊕ z → K} {d : K} (h : ∀ i, |a i - b i| ≤ d) (w : ν ⊕ H) :
    |lay.val a w - lay.val b w| ≤ d := by
  obtain ⟨i, rfl⟩ := (lay.names_bij hE).2 w
  rcases i with i | j
  · have e : ∀ st : p ⊕ z → K, lay.val st (lay.names (.inl i)) = st (.inr i) := fun st => lay.val_z st i
    rw [e, e]; exact h _
  · have e : ∀ st : p ⊕ z → K, lay.val st (lay.names (.inr j)) = st (.inl j) := fun st => lay.val_p st j
    rw [e, e]; exact h _

/-- **C172**: with tables that are wrong by at most `d`, the constrained variable falls below the bound by at most twice the
error of a product with the tables. -/
theorem C172_bound (h : Succeeded lay orc lMax kMax sched mod) (hk1 : 1 ≤ kMax) (hfb : m.fb0 m.cvar ≠ 0)
    (hc : Spec.CloseTables mod.tables t' d) (st : p ⊕ z → K) (eps : ε → K) :
    ∃ r', tFunc { mod with tables := t' } st eps .none false = .ok r' ∧
      m.xbar - 2 * (d * (1 + size1 (q0Of st eps))) ≤ lay.val r'.state (.inl m.cvar) := by
  obtain ⟨c, hm⟩ := genSys_ok h.perm h.gen
  obtain ⟨v', r', hr, hv, -, h1, hl, hk, hcase, hs⟩ := step_close h hk1 hc hm st eps
  refine ⟨r', h1, ?_⟩
  have hd := abs_le.1 (val_close (lay := lay) h.square hs (.inl m.cvar))
  have hslack := con_slack hm h.orc hfb hl hk (q0Of st eps) 0
  have hbind := con_bind (l := r'.l) hm h.orc hk (q0Of st eps) 0
  have he : lay.val (xPath c r'.l r'.k (q0Of st eps) 0) (.inl m.cvar) = declPath lay c r'.l r'.k (q0Of st eps) 0 m.cvar := rfl
  rw [he] at hd
  have hpos : 0 ≤ d * (1 + size1 (q0Of st eps)) := (abs_nonneg _).trans (val_close (lay := lay) h.square hs (.inl m.cvar))
  rcases hcase with ⟨a1, a2, -, a3⟩ | ⟨a1, a2⟩ | ⟨a1, a2, -⟩
  · have b1 := hslack (by unfold BindsAt; omega)
    have b2 := a3 0 (by omega)
    have b3 := abs_le.1 (hv 2 0 0 (by omega) (by omega) (by simp) (by simp))
    simp only [slotPeriod] at b3
    rw [a1, a2] at b1 hd
    linarith [hd.1, b3.2]
  · by_cases hl0 : r'.l = 0
    · have b1 := hbind (by unfold BindsAt; have := a2.binds; omega)
      linarith [hd.1]
    · have b1 := hslack (by unfold BindsAt; omega)
      have b2 := a2.start (by omega)
      have b3 := abs_le.1 (hv 0 r'.l r'.k (by omega) (by omega) (by simp) (by simp))
      simp only [slotPeriod] at b3
      linarith [hd.1, b3.2]
  · have b1 := hbind (by unfold BindsAt; omega)
    linarith [hd.1]

/-- **C172**: if no number that the search can look at is closer to the bound than that error, the equilibrium and the flag are
those of the exact tables, and the state is as close to the exact state. -/
theorem C172_same_equilibrium (h : Succeeded lay orc lMax kMax sched mod) (hk1 : 1 ≤ kMax) (hc : Spec.CloseTables mod.tables t' d)
    (st : p ⊕ z → K) (eps : ε → K)
    (hfar : ∀ i l k, l ≤ lMax → k ≤ kMax → (i = 1 → 0 < l) → (i = 3 → 0 < l + k) → ∀ x, checkCnst mod.tables (q0Of st eps) i l k = .ok x →
      d * (1 + size1 (q0Of st eps)) < |x - m.xbar|) :
    ∃ r r', tFunc mod st eps .none false = .ok r ∧ tFunc { mod with tables := t' } st eps .none false = .ok r' ∧
      r'.l = r.l ∧ r'.k = r.k ∧ r'.flag = r.flag ∧ ∀ i, |r'.state i - r.state i| ≤ d * (1 + size1 (q0Of st eps)) := by
  obtain ⟨c, hm⟩ := genSys_ok h.perm h.gen
  obtain ⟨M', hS⟩ := hm.eng
  have hst := h.states
  obtain ⟨v', r', hr', hv, hf, h1, hl, hk, hcase, hs⟩ := step_close h hk1 hc hm st eps
  have hr := checkCnst_reads hS (q0Of st eps)
  have hsig : SameSigns (fun i l k => pathValue (ff lay) c (q0Of st eps) l k (slotPeriod l k i)) v' m.xbar (lMax + 1) (kMax + 1) := by
    intro i l k a b c1 c3
    have e1 := hfar i l k (by omega) (by omega) c1 c3 _ (hr i l k a b c1 c3)
    have e2 := abs_le.1 (hv i l k a b c1 c3)
    rcases lt_abs.1 e1 with e | e
    · constructor <;> constructor <;> intro <;> linarith [e2.1, e2.2]
    · constructor <;> constructor <;> intro <;> linarith [e2.1, e2.2]
  have hfind := findLk_signs hr hr' hsig (by omega) (by omega)
  rw [hf, ← hm.xbar] at hfind
  exact ⟨_, r', tFunc_find hm st eps hfind hl hk, h1, rfl, rfl, rfl, hs⟩

/-- **C172**: in a simulation with these tables, the constrained variable is in no period below the bound by more than twice the
error of a product with the state and the shocks that entered the period. -/
theorem C172_simulation (h : Succeeded lay orc lMax kMax sched mod) (hk1 : 1 ≤ kMax) (hfb : m.fb0 m.cvar ≠ 0)
    (hc : Spec.CloseTables mod.tables t' d) (es : List (ε → K)) (st : p ⊕ z → K) :
    ∃ res, simLoop { mod with tables := t' } false st es = .ok res ∧ res.X.length = es.length + 1 ∧
      ∀ (i : Nat) s e s', res.X[i]? = some s → es[i]? = some e → res.X[i+1]? = some s' →
        m.xbar - 2 * (d * (1 + size1 (q0Of s e))) ≤ lay.val s' (.inl m.cvar) := by
  have main : ∃ res, simLoop { mod with tables := t' } false st es = .ok res ∧ res.X.length = es.length + 1 ∧
      res.X[0]? = some st ∧ ∀ (i : Nat) s e s', res.X[i]? = some s → es[i]? = some e → res.X[i+1]? = some s' →
        m.xbar - 2 * (d * (1 + size1 (q0Of s e))) ≤ lay.val s' (.inl m.cvar) := by
    induction es generalizing st with
    | nil => exact ⟨_, rfl, rfl, rfl, fun i s e s' _ he => by simp at he⟩
    | cons e es ih =>
      obtain ⟨r, h1, h2⟩ := C172_bound h hk1 hfb hc st e
      obtain ⟨res, g1, g2, g3, g4⟩ := ih r.state
      refine ⟨⟨st :: res.X, (r.l, r.k) :: res.LK, r.flag ||| res.flag⟩, by simp only [simLoop, h1, g1], by simp [g2], rfl, ?_⟩
      intro i s f s' hs hf hs'
      cases i with
      | zero =>
        simp only [List.getElem?_cons_zero, List.getElem?_cons_succ, zero_add, Option.some.injEq, g3] at hs hf hs'
        subst hs hf hs'
        exact h2
      | succ i =>
        simp only [List.getElem?_cons_succ] at hs hf hs'
        exact g4 i s f s' hs hf hs'
  obtain ⟨res, a, b, -, c⟩ := main
  exact ⟨res, a, b, c⟩

end

section Yaml
variable {D : Declared E ν ε K} {Z0 : Matrix o ν K} {Z1 : o → K} {tol : K} [DecidablePred (inall tol (yaml D Z0 Z1))]
  {lay : Layout tol (yaml D Z0 Z1) H z p}
  {orc : Oracle (Rows E H ε) (z ⊕ ε) p K} {lMax kMax : Nat} {sched : Nat → List Nat} {mod : Model z ε p o K}
  {t' : Tables (z ⊕ ε) p K} {d : K}

/-- **C172**: if no error is reported, the constrained variable differs from the maximum of the bound and its notional value, both
taken from the state that is returned, by at most a multiple of that error. -/
theorem C172_close_to_max (h : Succeeded lay orc lMax kMax sched mod) (hk1 : 1 ≤ kMax) (hlag : D.rc = 0)
    (hself : D.rb D.cvar = 0) (hc : Spec.CloseTables mod.tables t' d) (st : p ⊕ z → K) (eps : ε → K) (r' : Step z p K)
    (hr' : tFunc { mod with tables := t' } st eps .none false = .ok r') (hflag : r'.flag = 0) :
    |lay.val r'.state (.inl D.cvar) - max D.xbar (D.rb ⬝ᵥ (fun v => lay.val r'.state (.inl v)) + D.rd ⬝ᵥ eps)| ≤
      (2 + size1 D.rb) * (d * (1 + size1 (q0Of st eps))) := by
  obtain ⟨c, hm⟩ := genSys_ok h.perm h.gen
  obtain ⟨v', r'', hr, hv, -, h1, hl, hk, hcase, hs⟩ := step_close h hk1 hc hm st eps
  rw [h1] at hr'
  cases hr'
  have hfb := fb0_cvar_ne (Z0 := Z0) (Z1 := Z1) (show D.rb D.cvar ≠ 1 by rw [hself]; exact zero_ne_one)
  have hval := fun v => val_close (lay := lay) h.square hs (.inl v)
  generalize hη : d * (1 + size1 (q0Of st eps)) = η at *
  have hslack := con_slack hm h.orc hfb hl hk (q0Of st eps) 0
  have hbind := con_bind (l := r'.l) hm h.orc hk (q0Of st eps) 0
  have hpv := pathValue_declared (c := c) (l := r'.l) (k := r'.k) h hlag hself st eps
  have hx : declPath lay c r'.l r'.k (q0Of st eps) 0 (yaml D Z0 Z1).cvar =
    lay.val (xPath c r'.l r'.k (q0Of st eps) 0) (.inl D.cvar) := rfl
  rw [hx] at hslack hbind
  have hpos : 0 ≤ η := (abs_nonneg _).trans (hval D.cvar)
  -- the notional values
  have hn : |(D.rb ⬝ᵥ (fun v => lay.val r'.state (.inl v)) + D.rd ⬝ᵥ eps) -
      pathValue (ff lay) c (q0Of st eps) r'.l r'.k 0| ≤ size1 D.rb * η := by
    rw [hpv]
    have e : (D.rb ⬝ᵥ (fun v => lay.val r'.state (.inl v)) + D.rd ⬝ᵥ eps) -
        (D.rb ⬝ᵥ (fun v => lay.val (xPath c r'.l r'.k (q0Of st eps) 0) (.inl v)) + D.rd ⬝ᵥ eps) =
        ∑ v, D.rb v * (lay.val r'.state (.inl v) - lay.val (xPath c r'.l r'.k (q0Of st eps) 0) (.inl v)) := by
      simp only [dotProduct, mul_sub, Finset.sum_sub_distrib]
      ring
    rw [e]
    refine (Finset.abs_sum_le_sum_abs _ _).trans ?_
    unfold size1
    rw [Finset.sum_mul]
    refine Finset.sum_le_sum fun v _ => ?_
    rw [abs_mul]
    exact mul_le_mul_of_nonneg_left (hval v) (abs_nonneg _)
  -- the exact path under the spell
  have hex : |lay.val (xPath c r'.l r'.k (q0Of st eps) 0) (.inl D.cvar) -
      max D.xbar (pathValue (ff lay) c (q0Of st eps) r'.l r'.k 0)| ≤ η := by
    have hxb : (yaml D Z0 Z1).xbar = D.xbar := rfl
    rcases hcase with ⟨a1, a2, -, a3⟩ | ⟨a1, a2⟩ | ⟨a1, a2, a3⟩
    · rw [hslack (by unfold BindsAt; omega)]
      have b2 := a3 0 (by omega)
      have b3 := abs_le.1 (hv 2 0 0 (by omega) (by omega) (by simp) (by simp))
      simp only [slotPeriod] at b3
      rw [a1, a2]
      rcases max_cases D.xbar (pathValue (ff lay) c (q0Of st eps) 0 0 0) with ⟨e, _⟩ | ⟨e, _⟩
      · rw [e, abs_le]; constructor <;> linarith [b3.2]
      · rw [e, sub_self, abs_zero]; exact hpos
    · by_cases hl0 : r'.l = 0
      · rw [hbind (by unfold BindsAt; have := a2.binds; omega)]
        have b2 := a2.first
        have b3 := abs_le.1 (hv 2 r'.l r'.k (by omega) (by omega) (by simp) (by simp))
        simp only [slotPeriod] at b3
        rw [hl0] at b2 b3 ⊢
        rcases max_cases D.xbar (pathValue (ff lay) c (q0Of st eps) 0 r'.k 0) with ⟨e, _⟩ | ⟨e, _⟩
        · rw [e, hxb, sub_self, abs_zero]; exact hpos
        · rw [e, abs_le]; constructor <;> linarith [b3.1]
      · rw [hslack (by unfold BindsAt; omega)]
        have b2 := a2.start (by omega)
        have b3 := abs_le.1 (hv 0 r'.l r'.k (by omega) (by omega) (by simp) (by simp))
        simp only [slotPeriod] at b3
        rcases max_cases D.xbar (pathValue (ff lay) c (q0Of st eps) r'.l r'.k 0) with ⟨e, _⟩ | ⟨e, _⟩
        · rw [e, abs_le]; constructor <;> linarith [b3.2]
        · rw [e, sub_self, abs_zero]; exact hpos
    · exact absurd hflag a3
  have hmax := (abs_max_sub_max_le_abs (D.rb ⬝ᵥ (fun v => lay.val r'.state (.inl v)) + D.rd ⬝ᵥ eps)
    (pathValue (ff lay) c (q0Of st eps) r'.l r'.k 0) D.xbar).trans hn
  rw [max_comm _ D.xbar, max_comm _ D.xbar] at hmax
  have q1 := abs_le.1 (hval D.cvar)
  have q2 := abs_le.1 hex
  have q3 := abs_le.1 hmax
  rw [abs_le]
  constructor <;> linarith [q1.1, q1.2, q2.1, q2.2, q3.1, q3.2]

end Yaml

/-! ## A concrete case -/

/-- Every number in the tables is too large by `d`. -/
def shiftTables {q p : Type} (d : Rat) (t : Tables q p Rat) : Tables q p Rat where
  L := t.L
  Kk := t.Kk
  pq := fun l k => (t.pq l k).map fun c => ⟨fun i j => c.pmat i j + d, fun i => c.pterm i + d, fun i j => c.qmat i j + d, fun i => c.qterm i + d⟩
  b := fun l k i => (t.b l k i).map fun row => (fun j => row.1 j + d, row.2 + d)

theorem shiftTables_close {q p : Type} [Fintype q] {d : Rat} (hd : 0 ≤ d) (t : Tables q p Rat) : Spec.CloseTables t (shiftTables d t) d where
  shapeL := rfl
  shapeK := rfl
  cells := by
    intro l k c _ _ h
    refine ⟨⟨fun i j => c.pmat i j + d, fun i => c.pterm i + d, fun i j => c.qmat i j + d, fun i => c.qterm i + d⟩,
      by simp only [shiftTables, h, Option.map_some], ?_, ?_, ?_, ?_⟩ <;> intros <;>
      simp only [add_sub_cancel_left, abs_of_nonneg hd, le_refl]
  rows := by
    intro l k i row _ _ h
    refine ⟨(fun j => row.1 j + d, row.2 + d), by simp only [shiftTables, h, Option.map_some], ?_, ?_⟩ <;> intros <;>
      simp only [add_sub_cancel_left, abs_of_nonneg hd, le_refl]

/-- The hypotheses of C172 are met: in the first example with tables up to `(0,1)`, every number of which is too large by `1/20`,
the shock `-9/4` leads to the spell of one period, as with the exact tables, and the constrained variable is off by less than
`13/80`. -/
theorem C172_example : ∃ mod, Succeeded Ex1.lay Ex1.orc 0 1 (serial 1) mod ∧
    Spec.CloseTables mod.tables (shiftTables (1/20) mod.tables) (1/20) ∧ shiftTables (1/20) mod.tables ≠ mod.tables ∧
    ∃ r r', tFunc mod 0 (fun _ => -9/4) .none false = .ok r ∧
      tFunc { mod with tables := shiftTables (1/20) mod.tables } 0 (fun _ => -9/4) .none false = .ok r' ∧
      r.l = 0 ∧ r.k = 1 ∧ r.flag = 0 ∧ r'.l = 0 ∧ r'.k = 1 ∧ r'.flag = 0 ∧ ∀ i, |r'.state i - r.state i| ≤ 13/80 := by
  obtain ⟨mod, h⟩ := Ex1.succeeds (b := -1) 0 1 (Ex1.serial_perm 0 1)
  obtain ⟨c, hm⟩ := genSys_ok h.perm h.gen
  obtain ⟨c0, c1⟩ := Ex1.cells le_rfl hm
  obtain ⟨M', hS⟩ := hm.eng
  have hclose := shiftTables_close (d := 1/20) (by norm_num) mod.tables
  have hsize : (1/20 : Rat) * (1 + size1 (q0Of (0 : Fin 1 ⊕ Fin 1 → Rat) fun _ : Fin 1 => -9/4)) = 13/80 := by
    simp [size1, q0Of, Fintype.sum_sum_type]
    norm_num [abs_div]
  have lam_mul : ∀ x : Ex1.Q → Rat, Ex1.lam *ᵥ x = fun i => match i with
      | .inl _ => 1/2 * x (.inl 0) + 2/3 * x (.inr 0)
      | .inr _ => 0 := by
    intro x
    funext i
    rcases i with i | i <;> simp [mulVec, dotProduct, Fintype.sum_sum_type, Ex1.lam]
  have value_eq : ∀ q0 l k s, pathValue (ff Ex1.lay) c q0 l k s = qPath c l k q0 (s + 1) (.inl 0) := by
    intro q0 l k s
    simp only [pathValue, Ex1.fp1_eq, Ex1.fq0_eq, Ex1.fq1_eq, zero_dotProduct]
    simp [dotProduct, Fintype.sum_sum_type]
  have l00 : ∀ s, locCell c 0 0 s = ⟨Ex1.omg, 0, Ex1.lam, 0⟩ := by
    intro s
    have e1 : lLoc 0 s = 0 := by unfold lLoc; omega
    have e2 : kLoc 0 0 s = 0 := by unfold kLoc; omega
    simp only [locCell, e1, e2, c0]
  have l010 : locCell c 0 1 0 = Ex1.cell01 (-1) := c1
  have l011 : locCell c 0 1 1 = ⟨Ex1.omg, 0, Ex1.lam, 0⟩ := c0
  have q01 : ∀ q0, qPath c 0 1 q0 1 = Ex1.lam *ᵥ q0 := by
    intro q0
    rw [qPath, l010]
    simp only [Ex1.cell01, add_zero, qPath]
  have v00 : pathValue (ff Ex1.lay) c (q0Of (0 : Fin 1 ⊕ Fin 1 → Rat) fun _ => -9/4) 0 0 0 = -3/2 := by
    rw [value_eq, qPath, l00, add_zero, lam_mul]
    simp [q0Of, qPath]; norm_num
  have v01 : pathValue (ff Ex1.lay) c (q0Of (0 : Fin 1 ⊕ Fin 1 → Rat) fun _ => -9/4) 0 1 0 = -3/2 := by
    rw [value_eq, q01, lam_mul]
    simp [q0Of]; norm_num
  have v41 : pathValue (ff Ex1.lay) c (q0Of (0 : Fin 1 ⊕ Fin 1 → Rat) fun _ => -9/4) 0 1 1 = -3/4 := by
    rw [value_eq, qPath, q01, l011, add_zero, lam_mul, lam_mul]
    simp [q0Of]; norm_num
  have hx : Ex1.inp'.xbar = -1 := rfl
  have hr := checkCnst_reads hS (q0Of (0 : Fin 1 ⊕ Fin 1 → Rat) fun _ => -9/4)
  obtain ⟨r, r', g1, g2, g3, g4, g5, g6⟩ := C172_same_equilibrium h le_rfl hclose 0 (fun _ => -9/4) (by
    intro i l k hl hk h1 h3 x e
    have : l = 0 := by omega
    subst this
    rw [hr i 0 k (by omega) (by omega) h1 h3] at e
    rw [hsize, ← Except.ok.inj e, hx]
    have : k = 0 ∨ k = 1 := by omega
    fin_cases i
    · rcases this with rfl | rfl
      · show _ < |pathValue (ff Ex1.lay) c (q0Of (0 : Fin 1 ⊕ Fin 1 → Rat) fun _ => -9/4) 0 0 0 - _|
        rw [v00, lt_abs]; right; norm_num
      · show _ < |pathValue (ff Ex1.lay) c (q0Of (0 : Fin 1 ⊕ Fin 1 → Rat) fun _ => -9/4) 0 1 0 - _|
        rw [v01, lt_abs]; right; norm_num
    · exact absurd (h1 rfl) (by omega)
    · rcases this with rfl | rfl
      · show _ < |pathValue (ff Ex1.lay) c (q0Of (0 : Fin 1 ⊕ Fin 1 → Rat) fun _ => -9/4) 0 0 0 - _|
        rw [v00, lt_abs]; right; norm_num
      · show _ < |pathValue (ff Ex1.lay) c (q0Of (0 : Fin 1 ⊕ Fin 1 → Rat) fun _ => -9/4) 0 1 0 - _|
        rw [v01, lt_abs]; right; norm_num
    · rcases this with rfl | rfl
      · exact absurd (h3 rfl) (by omega)
      · show _ < |pathValue (ff Ex1.lay) c (q0Of (0 : Fin 1 ⊕ Fin 1 → Rat) fun _ => -9/4) 0 1 0 - _|
        rw [v01, lt_abs]; right; norm_num
    · rcases this with rfl | rfl
      · show _ < |pathValue (ff Ex1.lay) c (q0Of (0 : Fin 1 ⊕ Fin 1 → Rat) fun _ => -9/4) 0 0 0 - _|
        rw [v00, lt_abs]; right; norm_num
      · show _ < |pathValue (ff Ex1.lay) c (q0Of (0 : Fin 1 ⊕ Fin 1 → Rat) fun _ => -9/4) 0 1 1 - _|
        rw [v41, lt_abs]; left; norm_num)
  obtain ⟨s, s1, s2, s3, s4, -, -⟩ := Ex1.binding_region 0 1 le_rfl (by omega) h 0 (fun _ => -9/4) (-3/2) (by norm_num) (by norm_num) (by norm_num)
  rw [g1] at s1
  cases s1
  refine ⟨mod, h, hclose, ?_, r, r', g1, g2, s2, s3, s4, g3.trans s2, g4.trans s3, g5.trans s4, fun i => hsize ▸ g6 i⟩
  intro he
  have e1 := hS.complete.filled 0 0 (by omega) (by omega)
  have e2 : (shiftTables (1/20) mod.tables).pq 0 0 = some (c 0 0) := by rw [he]; exact e1
  simp only [shiftTables, e1, Option.map_some, Option.some.injEq] at e2
  have e3 := congrFun (congrArg Cell.pterm e2) 0
  simp at e3

end Pydsge
