import Verif.Props.TimeCons
import Verif.Props.Sim
import Mathlib.Tactic.Linarith
import Mathlib.Tactic.Positivity
import Mathlib.Tactic.FieldSimp
import Mathlib.Algebra.Order.Archimedean.Basic
import Mathlib.Data.Rat.Cast.Order
import Mathlib.Algebra.Order.BigOperators.Group.Finset
import Mathlib.Algebra.Order.BigOperators.Ring.Finset

/-!
# C131, C132: small disturbances, and the return to the steady state
-/

set_option autoImplicit false
set_option linter.unusedSectionVars false
set_option linter.unusedSimpArgs false

namespace Pydsge

open Matrix Pydsge.Engine Pydsge.Spec Pydsge.Tools Pydsge.GenSys

/-! ## Specification -/

namespace Spec

section
variable {ι K : Type} [Field K] [LinearOrder K]

/-- All entries are at most `δ` in absolute value. -/
def Within (δ : K) (x : ι → K) : Prop := ∀ i, |x i| ≤ δ

/-- The path converges to zero, in all entries. -/
def DiesOut (X : Nat → ι → K) : Prop := ∀ δ > 0, ∃ N, ∀ n, N ≤ n → Within δ (X n)

end

section
variable {z ε p o K : Type} [Fintype z] [Fintype ε] [Fintype p] [Fintype o] [DecidableEq z] [DecidableEq ε] [DecidableEq p]
  [Field K] [LinearOrder K]

/-- `X` is what `t_func` gives, period by period, from `st`, if the shocks `eps` hit in the first period and none later. -/
def Follows (mod : Model z ε p o K) (linear : Bool) (st : p ⊕ z → K) (eps : ε → K) (X : Nat → p ⊕ z → K) : Prop :=
  ∀ s, ∃ r, tFunc mod (prev st X s) (shockAt eps s) .none linear = .ok r ∧ X s = r.state

/-- Without shocks and without the constraint, the model returns to its steady state from everywhere. -/
def LinearStable (mod : Model z ε p o K) : Prop := ∀ st X, Follows mod true st 0 X → DiesOut X

end
end Spec

section Sizes
variable {ι κ K : Type} [Fintype ι] [Fintype κ] [Field K] [LinearOrder K] [IsStrictOrderedRing K]

/-- sum of absolute values -/
def size1 (x : ι → K) : K := ∑ i, |x i|

def msize (A : Matrix ι κ K) : K := ∑ i, ∑ j, |A i j|

theorem size1_nonneg (x : ι → K) : 0 ≤ size1 x := Finset.sum_nonneg fun _ _ => abs_nonneg _

theorem msize_nonneg (A : Matrix ι κ K) : 0 ≤ msize A := Finset.sum_nonneg fun _ _ => Finset.sum_nonneg fun _ _ => abs_nonneg _

theorem abs_le_size1 (x : ι → K) (i : ι) : |x i| ≤ size1 x :=
  Finset.single_le_sum (f := fun i => |x i|) (fun _ _ => abs_nonneg _) (Finset.mem_univ i)

theorem size1_add (x y : ι → K) : size1 (x + y) ≤ size1 x + size1 y := by
  unfold size1
  rw [← Finset.sum_add_distrib]
  exact Finset.sum_le_sum fun i _ => abs_add_le _ _

theorem abs_dot (w x : κ → K) : |w ⬝ᵥ x| ≤ size1 w * size1 x := by
  unfold dotProduct
  refine (Finset.abs_sum_le_sum_abs _ _).trans ?_
  rw [size1, Finset.sum_mul]
  refine Finset.sum_le_sum fun j _ => ?_
  rw [abs_mul]
  exact mul_le_mul_of_nonneg_left (abs_le_size1 x j) (abs_nonneg _)

theorem size1_mulVec (A : Matrix ι κ K) (x : κ → K) : size1 (A *ᵥ x) ≤ msize A * size1 x := by
  unfold msize
  rw [Finset.sum_mul]
  exact Finset.sum_le_sum fun i _ => abs_dot (A i) x

theorem size1_within {δ : K} {x : ι → K} (h : Spec.Within δ x) : size1 x ≤ Fintype.card ι * δ := by
  unfold size1
  refine (Finset.sum_le_card_nsmul Finset.univ _ δ fun i _ => h i).trans ?_
  rw [Finset.card_univ, nsmul_eq_mul]

end Sizes

section Lyapunov
variable {z K : Type} [Fintype z] [DecidableEq z] [Field K] [LinearOrder K] [IsStrictOrderedRing K]

/-- A function that falls along `x ↦ A x` if some power of `A` is small. -/
def lyap (A : Matrix z z K) (N : Nat) (x : z → K) : K := ∑ n ∈ Finset.range N, size1 (A ^ n *ᵥ x)

def lyapM (A : Matrix z z K) (N : Nat) : K := ∑ n ∈ Finset.range N, msize (A ^ n)

theorem lyap_le (A : Matrix z z K) (N : Nat) (x : z → K) : lyap A N x ≤ lyapM A N * size1 x := by
  unfold lyap lyapM
  rw [Finset.sum_mul]
  exact Finset.sum_le_sum fun n _ => size1_mulVec _ _

theorem le_lyap (A : Matrix z z K) (N : Nat) (x : z → K) : size1 x ≤ lyap A (N + 1) x := by
  unfold lyap
  have := Finset.single_le_sum (f := fun n => size1 (A ^ n *ᵥ x)) (fun _ _ => size1_nonneg _) (Finset.mem_range.2 (Nat.succ_pos N))
  simpa using this

theorem lyap_add (A : Matrix z z K) (N : Nat) (x y : z → K) : lyap A N (x + y) ≤ lyap A N x + lyap A N y := by
  unfold lyap
  rw [← Finset.sum_add_distrib]
  refine Finset.sum_le_sum fun n _ => ?_
  rw [mulVec_add]
  exact size1_add _ _

theorem lyap_step (A : Matrix z z K) (N : Nat) (hN : msize (A ^ N) ≤ 1/2) (x : z → K) :
    lyap A N (A *ᵥ x) ≤ lyap A N x - 1/2 * size1 x := by
  have h1 : lyap A N (A *ᵥ x) + size1 x = lyap A N x + size1 (A ^ N *ᵥ x) := by
    unfold lyap
    have e : ∀ n, A ^ n *ᵥ (A *ᵥ x) = A ^ (n + 1) *ᵥ x := fun n => by rw [mulVec_mulVec, pow_succ]
    simp only [e]
    rw [← Finset.sum_range_succ (fun n => size1 (A ^ n *ᵥ x)), Finset.sum_range_succ']
    simp
  have h2 := size1_mulVec (A ^ N) x
  have h3 := mul_le_mul_of_nonneg_right hN (size1_nonneg x)
  linarith

end Lyapunov

theorem diesOut_of_geometric {ι : Type} {X : Nat → ι → Rat} {C q : Rat} (hq : 0 ≤ q) (hq1 : q < 1) (h : ∀ s i, |X s i| ≤ C * q ^ s) :
    Spec.DiesOut X := by
  intro d hd
  obtain ⟨N, hN⟩ := exists_pow_lt_of_lt_one (show 0 < d / (|C| + 1) by positivity) hq1
  refine ⟨N, fun n hn i => (h n i).trans ?_⟩
  have h1 : q ^ n ≤ q ^ N := pow_le_pow_of_le_one hq hq1.le hn
  have h2 : C * q ^ n ≤ (|C| + 1) * q ^ N :=
    (mul_le_mul_of_nonneg_right (by have := le_abs_self C; linarith : C ≤ |C| + 1) (pow_nonneg hq n)).trans
      (mul_le_mul_of_nonneg_left h1 (by positivity))
  rw [lt_div_iff₀ (by positivity)] at hN
  linarith

variable {E ν ε o K : Type} [Fintype E] [Fintype ν] [Fintype ε] [Fintype o]
  [DecidableEq E] [DecidableEq ν] [DecidableEq ε] [Field K] [LinearOrder K] [IsStrictOrderedRing K]
variable {H z p : Type} [DecidableEq H] [Fintype H] [Fintype z] [Fintype p] [DecidableEq z] [DecidableEq p]
variable {tol : K} {m : Input E ν ε o K} [DecidablePred (inall tol m)] {lay : Layout tol m H z p}
  {orc : Oracle (Rows E H ε) (z ⊕ ε) p K} {lMax kMax : Nat} {sched : Nat → List Nat} {mod : Model z ε p o K}

theorem tFunc_linear (mod : Model z ε p o K) (st : p ⊕ z → K) (eps : ε → K) :
    tFunc mod st eps .none true = tFunc mod st eps (.pair 0 0) false := by
  unfold tFunc tFuncRaw
  simp [setLK]

/-- What linear mode returns. -/
theorem tFunc_linear_eq (h : Succeeded lay orc lMax kMax sched mod) (st : p ⊕ z → K) (eps : ε → K) :
    tFunc mod st eps .none true =
      .ok ⟨Sum.elim (mod.omg *ᵥ q0Of st eps) (fun i => (mod.lam *ᵥ q0Of st eps) (.inl i)), 0, 0, 0⟩ := by
  obtain ⟨c, hm⟩ := genSys_ok h.perm h.gen
  obtain ⟨M', hS⟩ := hm.eng
  have := h.states
  rw [tFunc_linear]
  have := tFunc_pair hm st eps (Nat.zero_le lMax) (Nat.zero_le kMax)
  rw [xPath_zero, cells_l0 hS (sysOf_T12 h.orc).1 (h.orc.klein _ _ hm.kl) (Nat.zero_le lMax)] at this
  simp only [add_zero] at this
  exact this

/-- **C131**, one step: if the bound is below the steady state, there is a size `δ > 0` such that for all states and shocks below it the
transition with the constraint is the linear one: same state, `(l,k) = (0,0)` and flag 0. -/
theorem C131_small_disturbances_linear (h : Succeeded lay orc lMax kMax sched mod) (hx : m.xbar < 0) :
    ∃ δ > 0, ∀ (st : p ⊕ z → K) (eps : ε → K), Spec.Within δ (fun i => st (.inr i)) → Spec.Within δ eps →
      tFunc mod st eps .none false = tFunc mod st eps .none true := by
  obtain ⟨c, hm⟩ := genSys_ok h.perm h.gen
  obtain ⟨M', hS⟩ := hm.eng
  have hz := h.states
  have hcell : ∀ l ≤ lMax, c l 0 = ⟨mod.omg, 0, mod.lam, 0⟩ := fun l hl =>
    cells_l0 hS (sysOf_T12 h.orc).1 (h.orc.klein _ _ hm.kl) hl
  have hloc : ∀ l ≤ lMax, ∀ s, locCell c l 0 s = ⟨mod.omg, 0, mod.lam, 0⟩ := by
    intro l hl s
    unfold locCell lLoc kLoc
    rw [Nat.zero_min]
    exact hcell _ (by omega)
  have hterm : ∀ l ≤ lMax, ∀ s, (lamXi c l 0 s).2 = 0 := by
    intro l hl s
    induction s with
    | zero => rfl
    | succ s ih => simp only [lamXi, hloc l hl s, ih, mulVec_zero, add_zero]
  let w : Nat → z ⊕ ε → K := fun j => (rowAt (ff lay) c j 0 j).1
  have hval : ∀ j ≤ lMax, ∀ q0, pathValue (ff lay) c q0 j 0 j = w j ⬝ᵥ q0 := by
    intro j hj q0
    have h1 := rowAt_value (ff lay) c j 0 j q0
    have h2 : (rowAt (ff lay) c j 0 j).2 = 0 := by
      simp only [rowAt, cr, hterm j hj, hloc j hj, dotProduct_zero, add_zero]
    rw [h2, add_zero] at h1
    exact h1.symm
  let W : K := ∑ j ∈ Finset.range (lMax + 1), size1 (w j)
  have hW : 0 ≤ W := Finset.sum_nonneg fun _ _ => size1_nonneg _
  have hWj : ∀ j ≤ lMax, size1 (w j) ≤ W := fun j hj =>
    Finset.single_le_sum (f := fun j => size1 (w j)) (fun _ _ => size1_nonneg _) (Finset.mem_range.2 (by omega))
  let n : K := Fintype.card (z ⊕ ε)
  have hn : 0 ≤ n := Nat.cast_nonneg _
  have hpos : 0 < W * n + 1 := by positivity
  refine ⟨-m.xbar / (W * n + 1) / 2, by have := neg_pos.2 hx; positivity, fun st eps h1 h2 => ?_⟩
  generalize hδ : -m.xbar / (W * n + 1) / 2 = δ at h1 h2
  have hδ' : (W * n + 1) * δ = -m.xbar / 2 := by rw [← hδ]; field_simp
  have hδ0 : 0 < δ := by rw [← hδ]; have := neg_pos.2 hx; positivity
  have hq : size1 (q0Of st eps) ≤ n * δ := size1_within (fun i => by
    rcases i with i | i
    · exact h1 i
    · exact h2 i)
  have hnb : NeverBinds (fun i l k => pathValue (ff lay) c (q0Of st eps) l k (slotPeriod l k i)) mod.xbar (lMax + 1) := by
    intro j hj
    simp only [slotPeriod]
    rw [hval j (by omega), hm.xbar]
    have a1 := abs_dot (w j) (q0Of st eps)
    have a2 : size1 (w j) * size1 (q0Of st eps) ≤ W * (n * δ) :=
      mul_le_mul (hWj j (by omega)) hq (size1_nonneg _) hW
    have a3 := neg_abs_le (w j ⬝ᵥ q0Of st eps)
    have a4 : W * (n * δ) = -m.xbar / 2 - δ := by rw [← hδ']; ring
    linarith
  have hfind : findLk (checkCnst mod.tables (q0Of st eps)) mod.xbar (lMax + 1) (kMax + 1) = .ok (0, 0, 0) := by
    unfold findLk
    rcases slackLoop_spec (xbar := mod.xbar) (checkCnst_reads hS (q0Of st eps)) (by omega) 0 (by omega) with
      ⟨h1, h2⟩ | ⟨⟨j, h1⟩, j', h2, h3⟩
    · rw [h2]; simp
    · exact absurd (hnb j h1.2.1) (not_lt.2 h1.2.2)
  rw [tFunc_find hm st eps hfind (Nat.zero_le lMax) (Nat.zero_le kMax), tFunc_linear]
  exact (tFunc_pair hm st eps (Nat.zero_le lMax) (Nat.zero_le kMax)).symm

/-- the part of the linear solution that maps lagged states to states -/
def linA (mod : Model z ε p o K) : Matrix z z K := fun i j => mod.lam (.inl i) (.inl j)

/-- the part that maps shocks to states -/
def linB (mod : Model z ε p o K) : Matrix z ε K := fun i j => mod.lam (.inl i) (.inr j)

theorem lam_split (mod : Model z ε p o K) (st : p ⊕ z → K) (eps : ε → K) :
    (fun i => (mod.lam *ᵥ q0Of st eps) (.inl i)) = linA mod *ᵥ (fun i => st (.inr i)) + linB mod *ᵥ eps := by
  funext i
  simp only [mulVec, dotProduct, Fintype.sum_sum_type, q0Of, Sum.elim_inl, Sum.elim_inr, Pi.add_apply, linA, linB]

theorem linear_path_states (h : Succeeded lay orc lMax kMax sched mod) {st : p ⊕ z → K} {X : Nat → p ⊕ z → K}
    (hX : Spec.Follows mod true st 0 X) (s : Nat) : (fun i => X s (.inr i)) = linA mod ^ (s + 1) *ᵥ (fun i => st (.inr i)) := by
  have hs0 : ∀ s, shockAt (0 : ε → K) s = 0 := fun s => by cases s <;> rfl
  have hstep : ∀ s, (fun i => X s (.inr i)) = linA mod *ᵥ (fun i => prev st X s (.inr i)) := by
    intro s
    obtain ⟨r, h1, h2⟩ := hX s
    rw [tFunc_linear_eq h, hs0] at h1
    cases h1
    rw [h2]
    have := lam_split mod (prev st X s) 0
    rw [mulVec_zero, add_zero] at this
    exact this
  induction s with
  | zero => rw [hstep 0, zero_add, pow_one]; rfl
  | succ s ih =>
    rw [hstep (s + 1)]
    show linA mod *ᵥ (fun i => X s (.inr i)) = _
    rw [ih, mulVec_mulVec, ← pow_succ']

/-- The linear path from a state. -/
theorem linear_path_exists (h : Succeeded lay orc lMax kMax sched mod) (st : p ⊕ z → K) (eps : ε → K) :
    ∃ X, Spec.Follows mod true st eps X := by
  let f : (p ⊕ z → K) → (ε → K) → p ⊕ z → K := fun st eps =>
    Sum.elim (mod.omg *ᵥ q0Of st eps) (fun i => (mod.lam *ᵥ q0Of st eps) (.inl i))
  let X : Nat → p ⊕ z → K := fun s => Nat.rec (f st eps) (fun _ x => f x 0) s
  refine ⟨X, fun s => ⟨_, tFunc_linear_eq h _ _, ?_⟩⟩
  cases s <;> rfl

/-- If linear paths die out, a power of the transition of states is small. -/
theorem small_power (h : Succeeded lay orc lMax kMax sched mod) (hs : Spec.LinearStable mod) :
    ∃ N, msize (linA mod ^ (N + 1)) ≤ 1/2 := by
  let n : K := Fintype.card z
  have hn : 0 ≤ n := Nat.cast_nonneg _
  have hδ : 0 < 1 / (2 * (n * n + 1)) := by positivity
  have : ∀ j : z, ∃ N, ∀ s, N ≤ s → ∀ i, |(linA mod ^ (s + 1)) i j| ≤ 1 / (2 * (n * n + 1)) := by
    intro j
    let st : p ⊕ z → K := Sum.elim 0 (Pi.single j 1)
    obtain ⟨X, hX⟩ := linear_path_exists h st 0
    obtain ⟨N, hN⟩ := hs st X hX _ hδ
    refine ⟨N, fun s hs i => ?_⟩
    have h1 := hN s hs (.inr i)
    have h2 := congrFun (linear_path_states h hX s) i
    have h3 : (linA mod ^ (s + 1) *ᵥ (fun i => st (.inr i))) i = (linA mod ^ (s + 1)) i j := by
      show (linA mod ^ (s + 1) *ᵥ Pi.single j 1) i = _
      rw [mulVec_single_one]
      rfl
    rw [h3] at h2
    rw [← h2]
    exact h1
  choose N hN using this
  refine ⟨∑ j, N j, ?_⟩
  have hb : ∀ i j, |(linA mod ^ ((∑ j, N j) + 1)) i j| ≤ 1 / (2 * (n * n + 1)) := fun i j =>
    hN j _ (Finset.single_le_sum (f := N) (fun _ _ => Nat.zero_le _) (Finset.mem_univ j)) i
  unfold msize
  have h1 : ∀ i : z, ∑ j, |(linA mod ^ ((∑ j, N j) + 1)) i j| ≤ n * (1 / (2 * (n * n + 1))) := by
    intro i
    refine (Finset.sum_le_card_nsmul Finset.univ _ _ fun j _ => hb i j).trans ?_
    rw [Finset.card_univ, nsmul_eq_mul]
  refine (Finset.sum_le_card_nsmul Finset.univ _ _ fun i _ => h1 i).trans ?_
  rw [Finset.card_univ, nsmul_eq_mul]
  show n * (n * (1 / (2 * (n * n + 1)))) ≤ 1/2
  rw [show n * (n * (1 / (2 * (n * n + 1)))) = (n * n) / (n * n + 1) / 2 by field_simp]
  have : (n * n) / (n * n + 1) ≤ 1 := by
    rw [div_le_one (by positivity)]
    linarith
  linarith

/-- If the linear model returns to its steady state, there is a region of states that small shocks do not leave, and in which the constraint
does not bind. -/
theorem small_region (h : Succeeded lay orc lMax kMax sched mod) (hx : m.xbar < 0) (hs : Spec.LinearStable mod) :
    ∃ δ > 0, ∃ P : (p ⊕ z → K) → Prop, (∀ st, Spec.Within δ (fun i => st (.inr i)) → P st) ∧
      ∀ st e, P st → Spec.Within δ e → tFunc mod st e .none false = tFunc mod st e .none true ∧
        ∀ r, tFunc mod st e .none true = .ok r → P r.state := by
  obtain ⟨δ, hδ, hstep⟩ := C131_small_disturbances_linear h hx
  obtain ⟨N, hN⟩ := small_power h hs
  let A := linA mod
  let M := lyapM A (N + 1)
  have hM : 0 ≤ M := Finset.sum_nonneg fun _ _ => msize_nonneg _
  let b := M * msize (linB mod)
  have hb : 0 ≤ b := mul_nonneg hM (msize_nonneg _)
  let nz : K := Fintype.card z
  let ne : K := Fintype.card ε
  have hnz : 0 ≤ nz := Nat.cast_nonneg _
  have hne : 0 ≤ ne := Nat.cast_nonneg _
  let C := M * nz + (2 * M + 1) * (b * ne)
  have hC : 0 ≤ C := by positivity
  refine ⟨δ / (C + 1), by positivity, ?_⟩
  generalize hd : δ / (C + 1) = d
  have hd0 : 0 < d := by rw [← hd]; positivity
  have hdδ : C * d + d = δ := by rw [← hd]; field_simp
  have hCd : 0 ≤ C * d := mul_nonneg hC hd0.le
  refine ⟨fun st => lyap A (N + 1) (fun i => st (.inr i)) ≤ C * d, fun st hst => ?_, fun st e hV he0 => ⟨?_, fun r hr => ?_⟩⟩
  · refine (lyap_le A (N + 1) _).trans ?_
    have : M * size1 (fun i => st (.inr i)) ≤ M * (nz * d) := mul_le_mul_of_nonneg_left (size1_within hst) hM
    refine this.trans ?_
    show M * (nz * d) ≤ (M * nz + (2 * M + 1) * (b * ne)) * d
    have : 0 ≤ (2 * M + 1) * (b * ne) * d := by positivity
    linarith
  · refine hstep st e (fun i => ?_) fun i => (he0 i).trans (by linarith)
    have := (abs_le_size1 (fun i => st (.inr i)) i).trans ((le_lyap A N _).trans hV)
    exact this.trans (by linarith)
  · rw [tFunc_linear_eq h] at hr
    cases hr
    simp only [Sum.elim_inr]
    rw [lam_split]
    replace hV : lyap A (N + 1) (fun i => st (.inr i)) ≤ C * d := hV
    generalize hxz : (fun i => st (.inr i)) = x at hV
    have a1 := lyap_add A (N + 1) (A *ᵥ x) (linB mod *ᵥ e)
    have a2 := lyap_step A (N + 1) hN x
    have a3 : lyap A (N + 1) (linB mod *ᵥ e) ≤ b * (ne * d) := by
      refine (lyap_le A (N + 1) _).trans ?_
      show M * _ ≤ M * msize (linB mod) * (ne * d)
      rw [mul_assoc]
      refine mul_le_mul_of_nonneg_left ?_ hM
      exact (size1_mulVec _ _).trans (mul_le_mul_of_nonneg_left (size1_within he0) (msize_nonneg _))
    have a4 : lyap A (N + 1) x ≤ M * size1 x := lyap_le A (N + 1) x
    show lyap A (N + 1) (A *ᵥ x + linB mod *ᵥ e) ≤ C * d
    by_cases hbig : 2 * (b * (ne * d)) ≤ size1 x
    · linarith
    · have a5 : M * size1 x ≤ M * (2 * (b * (ne * d))) := mul_le_mul_of_nonneg_left (by linarith) hM
      have a6 : M * (2 * (b * (ne * d))) + b * (ne * d) ≤ C * d := by
        show _ ≤ (M * nz + (2 * M + 1) * (b * ne)) * d
        have : 0 ≤ M * nz * d := by positivity
        linarith
      have := size1_nonneg x
      linarith

/-- **C131**, simulations: if the linear model returns to its steady state, there is a size `δ > 0` such that in every simulation, of any
length, with an initial state and shocks below `δ`, the constraint never binds: the simulation is the linear one, with `(l,k) = (0,0)`
throughout and flag 0. -/
theorem C131_small_shocks_never_bind (h : Succeeded lay orc lMax kMax sched mod) (hx : m.xbar < 0) (hs : Spec.LinearStable mod) :
    ∃ δ > 0, ∀ (st : p ⊕ z → K) (es : List (ε → K)), Spec.Within δ (fun i => st (.inr i)) → (∀ e ∈ es, Spec.Within δ e) →
      ∃ X, simLoop mod false st es = .ok ⟨X, List.replicate es.length (0, 0), 0⟩ ∧
        simLoop mod true st es = .ok ⟨X, List.replicate es.length (0, 0), 0⟩ := by
  obtain ⟨δ, hδ, P, hP, hstep⟩ := small_region h hx hs
  refine ⟨δ, hδ, fun st es hst hes => ?_⟩
  have key : ∀ (es : List (ε → K)) (st : p ⊕ z → K), P st → (∀ e ∈ es, Spec.Within δ e) →
      ∃ X, simLoop mod false st es = .ok ⟨X, List.replicate es.length (0, 0), 0⟩ ∧
        simLoop mod true st es = .ok ⟨X, List.replicate es.length (0, 0), 0⟩ := by
    intro es
    induction es with
    | nil => intro st _ _; exact ⟨_, rfl, rfl⟩
    | cons e es ih =>
      intro st hst he
      obtain ⟨h1, h2⟩ := hstep st e hst (he e (List.mem_cons_self ..))
      have h3 := tFunc_linear_eq h st e
      obtain ⟨X, hX1, hX2⟩ := ih _ (h2 _ h3) (fun e' h' => he e' (List.mem_cons_of_mem _ h'))
      simp only [simLoop]
      rw [h1, h3]
      dsimp only at hX1 hX2 ⊢
      rw [hX1, hX2]
      refine ⟨st :: X, ?_, ?_⟩ <;> simp [List.replicate_succ]
  exact key es st (hP st hst) hes

/-- The searching path is the linear one if it is small. -/
theorem follows_small (h : Succeeded lay orc lMax kMax sched mod) (hx : m.xbar < 0) (hs : Spec.LinearStable mod) :
    ∃ δ > 0, ∀ (st : p ⊕ z → K) (eps : ε → K) (X : Nat → p ⊕ z → K), Spec.Within δ (fun i => st (.inr i)) → Spec.Within δ eps →
      Spec.Follows mod false st eps X → ∀ s, tFunc mod (prev st X s) (shockAt eps s) .none false =
        tFunc mod (prev st X s) (shockAt eps s) .none true := by
  obtain ⟨δ, hδ, P, hP, hstep⟩ := small_region h hx hs
  refine ⟨δ, hδ, fun st eps X hst heps hX => ?_⟩
  have hsh : ∀ s, Spec.Within δ (shockAt eps s) := by
    intro s
    cases s with
    | zero => exact heps
    | succ s => intro i; simp [shockAt]; exact hδ.le
  have hreg : ∀ s, P (prev st X s) := by
    intro s
    induction s with
    | zero => exact hP st hst
    | succ s ih =>
      obtain ⟨r, h1, h2⟩ := hX s
      obtain ⟨g1, g2⟩ := hstep _ _ ih (hsh s)
      rw [g1] at h1
      have := g2 r h1
      rw [← h2] at this
      exact this
  exact fun s => (hstep _ _ (hreg s) (hsh s)).1

/-- **C131**, return: the steady state is locally stable, with the constraint: there is a size `δ > 0` such that after all initial
states and shocks below `δ`, the constraint binds in no period and the path converges to the steady state. -/
theorem C131_locally_stable (h : Succeeded lay orc lMax kMax sched mod) (hx : m.xbar < 0) (hs : Spec.LinearStable mod) :
    ∃ δ > 0, ∀ (st : p ⊕ z → K) (eps : ε → K) (X : Nat → p ⊕ z → K), Spec.Within δ (fun i => st (.inr i)) → Spec.Within δ eps →
      Spec.Follows mod false st eps X → Spec.DiesOut X ∧
        ∀ s r, tFunc mod (prev st X s) (shockAt eps s) .none false = .ok r → r.l = 0 ∧ r.k = 0 ∧ r.flag = 0 := by
  obtain ⟨δ, hδ, hf⟩ := follows_small h hx hs
  refine ⟨δ, hδ, fun st eps X hst heps hX => ?_⟩
  have h1 := hf st eps X hst heps hX
  constructor
  · have hY : Spec.Follows mod true (X 0) 0 (fun s => X (s + 1)) := by
      intro s
      obtain ⟨r, h2, h3⟩ := hX (s + 1)
      rw [h1] at h2
      refine ⟨r, ?_, h3⟩
      rw [← h2]
      congr 1
      · cases s <;> rfl
      · cases s <;> rfl
    intro d hd
    obtain ⟨N, hN⟩ := hs _ _ hY d hd
    refine ⟨N + 1, fun n hn => ?_⟩
    have := hN (n - 1) (by omega)
    simp only at this
    rwa [show n - 1 + 1 = n by omega] at this
  · intro s r hr
    rw [h1, tFunc_linear_eq h] at hr
    cases hr
    exact ⟨rfl, rfl, rfl⟩

/-- **C132**, expected paths: if the linear model returns to its steady state, so does the path that is expected under any spell
`(l,k)`, from any state and after any shock. -/
theorem C132_expected_paths_return (hs : Spec.LinearStable mod) {l k : Nat} {st : p ⊕ z → K} {eps : ε → K}
    {X : Nat → p ⊕ z → K} (hX : ExpectedPath mod l k st eps X) : Spec.DiesOut X := by
  have hY := C15_restart hX (l + k)
  have he : elapsed l k (l + k + 1) = (0, 0) := by
    unfold elapsed
    rw [if_neg (by omega)]
    simp
  rw [he] at hY
  have hF : Spec.Follows mod true (X (l + k)) 0 (fun s => X (l + k + 1 + s)) := by
    intro s
    obtain ⟨r, h1, h2⟩ := hY s
    have he0 : elapsed 0 0 s = (0, 0) := by
      unfold elapsed
      split_ifs <;> simp
    rw [he0] at h1
    exact ⟨r, (tFunc_linear mod _ _).trans h1, h2⟩
  intro d hd
  obtain ⟨N, hN⟩ := hs _ _ hF d hd
  refine ⟨l + k + 1 + N, fun n hn => ?_⟩
  have := hN (n - (l + k + 1)) (by omega)
  simp only at this
  rwa [show l + k + 1 + (n - (l + k + 1)) = n by omega] at this

/-- What an impulse response does, far out: for every size `δ` there is a period after which all responses are below `δ`, however long the
response is. -/
def Spec.IrfsReturn (mod : Model z ε p o K) (sl : List (ShockSpec ε K)) (st0 : p ⊕ z → K) : Prop :=
  ∀ δ > 0, ∃ N, ∀ T xs, irfs mod ⟨sl, .none, false, false⟩ st0 T = .ok xs →
    ∀ (t : Nat) s, N ≤ t → xs[t]? = some s → Spec.Within δ s.state

section
variable {D : Declared E ν ε K} {Z0 : Matrix o ν K} {Z1 : o → K} [DecidablePred (inall tol (yaml D Z0 Z1))]
  {lay' : Layout tol (yaml D Z0 Z1) H z p}

/-- **C132** (holds if the linear model is stable and the response starts in an equilibrium that satisfies the constraint in every period, while
no other spell passes the tests): the impulse response returns to the steady state. -/
theorem C132_irfs_return_partial (h : Succeeded lay' orc lMax kMax sched mod) (hs : Spec.LinearStable mod) (hk1 : 1 ≤ kMax)
    (hL : lMax + 1 ≤ 999) (hlag : D.rc = 0) (hself : D.rb D.cvar = 0) (st0 : p ⊕ z → K) (sl : List (ShockSpec ε K)) (eps : ε → K)
    (hsl : ∀ t, Spec.ShocksAt sl t (shockAt eps t)) {r : Step z p K} (hr : tFunc mod st0 eps .none false = .ok r) (hflag : r.flag = 0)
    {X : Nat → p ⊕ z → K} (hX : ExpectedPath mod r.l r.k st0 eps X)
    (hsat : Spec.Satisfies D (lagVal lay' st0) eps (Spec.declared lay' X) r.l r.k)
    (hriv : ∀ t, t + 1 < r.l + r.k → Spec.NoRival lay' mod lMax kMax (X t) 0 (elapsed r.l r.k (t + 1)).1 (elapsed r.l r.k (t + 1)).2) :
    Spec.IrfsReturn mod sl st0 := by
  intro δ hδ
  obtain ⟨N, hN⟩ := C132_expected_paths_return hs hX δ hδ
  refine ⟨N, fun T xs hxs t s ht hts => ?_⟩
  obtain ⟨xs', h1, _, h2⟩ := C116_expectations_come_true_partial h hk1 hL hlag hself st0 sl eps hsl hr hflag hX hsat hriv T
  rw [hxs] at h1
  cases h1
  rw [(h2 t s hts).1]
  exact hN t ht

end

end Pydsge
