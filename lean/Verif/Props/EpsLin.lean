import Verif.Props.Filter
import Verif.Props.LanneNyberg

/-!
# C160: extraction with the Kalman filter is least squares and undoes a linear simulation
-/

set_option autoImplicit false
set_option linter.unusedSectionVars false
set_option linter.unusedSimpArgs false

namespace Pydsge

open Matrix Pydsge.Engine Pydsge.Spec Pydsge.Tools Pydsge.GenSys Pydsge.Filter

section
variable {E' ν H z ε p o K : Type} [Fintype E'] [Fintype ν] [Fintype H] [Fintype z] [Fintype ε] [Fintype p] [Fintype o] [DecidableEq E']
  [DecidableEq ν] [DecidableEq H] [DecidableEq z] [DecidableEq ε] [DecidableEq p] [Field K] [LinearOrder K] [IsStrictOrderedRing K]

namespace Spec

/-- The sum of squares. -/
def sumSq {n : Type} [Fintype n] (v : n → K) : K := ∑ i, v i * v i

/-- The four conditions of the pseudoinverse (contract of `numpy.linalg.pinv`, without rounding and without singular values below the cutoff). -/
def PinvMP (pinv : Matrix (p ⊕ z) ε K → Matrix ε (p ⊕ z) K) : Prop :=
  ∀ E, E * pinv E * E = E ∧ pinv E * E * pinv E = pinv E ∧ (E * pinv E)ᵀ = E * pinv E ∧ (pinv E * E)ᵀ = pinv E * E

/-- In the linear model, no two different shocks lead from one state to the same state. -/
def Distinguishes (mod : Model z ε p o K) : Prop :=
  ∀ x u v r r', tFunc mod x u .none true = .ok r → tFunc mod x v .none true = .ok r' → r.state = r'.state → u = v

/-- The linear step with `u` misses `y` by `d`. -/
def Misses (mod : Model z ε p o K) (x : p ⊕ z → K) (u : ε → K) (y d : p ⊕ z → K) : Prop :=
  ∃ r, tFunc mod x u .none true = .ok r ∧ d = y - r.state

end Spec

theorem sumSq_nonneg {n : Type} [Fintype n] (v : n → K) : 0 ≤ Spec.sumSq v :=
  Finset.sum_nonneg fun i _ => mul_self_nonneg (v i)

theorem sumSq_zero {n : Type} [Fintype n] (v : n → K) (h : Spec.sumSq v ≤ 0) : v = 0 := by
  have h0 := (Finset.sum_eq_zero_iff_of_nonneg fun i _ => mul_self_nonneg (v i)).1 (le_antisymm h (sumSq_nonneg v))
  funext i
  exact mul_self_eq_zero.1 (h0 i (Finset.mem_univ i))

theorem sumSq_add {n : Type} [Fintype n] (v w : n → K) (h : v ⬝ᵥ w = 0) : Spec.sumSq (v + w) = Spec.sumSq v + Spec.sumSq w := by
  have : ∀ i, (v + w) i * (v + w) i = v i * v i + w i * w i + 2 * (v i * w i) := fun i => by simp only [Pi.add_apply]; ring
  unfold Spec.sumSq
  simp only [this, Finset.sum_add_distrib, ← Finset.mul_sum]
  have h' : ∑ i, v i * w i = 0 := h
  rw [h']
  ring

/-- The pseudoinverse solves the least squares problem, with the shortest solution. -/
theorem pinv_least {n : Type} [Fintype n] (E : Matrix n ε K) (P : Matrix ε n K) (h1 : E * P * E = E) (h2 : P * E * P = P)
    (h3 : (E * P)ᵀ = E * P) (h4 : (P * E)ᵀ = P * E) (d : n → K) (v : ε → K) :
    Spec.sumSq (d - E *ᵥ (P *ᵥ d)) ≤ Spec.sumSq (d - E *ᵥ v) ∧
    (Spec.sumSq (d - E *ᵥ v) ≤ Spec.sumSq (d - E *ᵥ (P *ᵥ d)) → Spec.sumSq (P *ᵥ d) ≤ Spec.sumSq v) := by
  have hs : d - E *ᵥ v = (d - E *ᵥ (P *ᵥ d)) + E *ᵥ (P *ᵥ d - v) := by rw [mulVec_sub]; abel
  have ho : (d - E *ᵥ (P *ᵥ d)) ⬝ᵥ (E *ᵥ (P *ᵥ d - v)) = 0 := by
    rw [dotProduct_mulVec, ← mulVec_transpose, mulVec_sub, mulVec_mulVec, mulVec_mulVec]
    have : Eᵀ * (E * P) = Eᵀ := by rw [← h3, ← transpose_mul, h1]
    rw [Matrix.mul_assoc, this, sub_self, zero_dotProduct]
  rw [hs, sumSq_add _ _ ho]
  refine ⟨le_add_of_nonneg_right (sumSq_nonneg _), fun h => ?_⟩
  have hw := sumSq_zero _ (by simpa using h : Spec.sumSq (E *ᵥ (P *ᵥ d - v)) ≤ 0)
  have hv : v = P *ᵥ d + (v - P *ᵥ d) := by abel
  have hw' : E *ᵥ (v - P *ᵥ d) = 0 := by
    rw [← neg_sub, mulVec_neg, hw, neg_zero]
  have ho' : (P *ᵥ d) ⬝ᵥ (v - P *ᵥ d) = 0 := by
    have : P *ᵥ d = (P * E)ᵀ *ᵥ (P *ᵥ d) := by rw [h4, mulVec_mulVec, h2]
    generalize v - P *ᵥ d = w at hw' ⊢
    rw [this, mulVec_transpose, ← dotProduct_mulVec, ← mulVec_mulVec, hw', mulVec_zero, dotProduct_zero]
  rw [hv, sumSq_add _ _ ho']
  exact le_add_of_nonneg_right (sumSq_nonneg _)

variable {tol : K} {m : Input E' ν ε o K} [DecidablePred (inall tol m)] {lay : Layout tol m H z p}
  {orc : Oracle (Rows E' H ε) (z ⊕ ε) p K} {lMax kMax : Nat} {sched : Nat → List Nat} {mod : Model z ε p o K}

theorem getEpsLin_eq (h : Succeeded lay orc lMax kMax sched mod) (hl : 1 ≤ lMax) (pinv : Matrix (p ⊕ z) ε K → Matrix ε (p ⊕ z) K)
    {F : Matrix (p ⊕ z) (p ⊕ z) K} {E : Matrix (p ⊕ z) ε K} (hF : Spec.LinearTransition mod F E) (x cur : p ⊕ z → K) :
    getEpsLin pinv F mod x cur = .ok (pinv E *ᵥ (x - F *ᵥ cur)) := by
  obtain ⟨rfl, rfl⟩ := linear_unique hF (linear_of_cell h)
  unfold getEpsLin
  rw [cell10_ok h hl]

theorem extractLoop_least (h : Succeeded lay orc lMax kMax sched mod) (hl : 1 ≤ lMax) (pinv : Matrix (p ⊕ z) ε K → Matrix ε (p ⊕ z) K)
    (hp : Spec.PinvMP pinv) (F : Matrix (p ⊕ z) (p ⊕ z) K) (E : Matrix (p ⊕ z) ε K) (hF : Spec.LinearTransition mod F E) :
    ∀ (xs : List (p ⊕ z → K)) (cur : p ⊕ z → K) (path : List (p ⊕ z → K)) (resid : List (ε → K)),
      extractLoop pinv F mod cur xs = .ok (path, resid) → ∀ (t : Nat) x y u, (cur :: path)[t]? = some x → xs[t]? = some y → resid[t]? = some u →
      ∀ v d d', Spec.Misses mod x u y d → Spec.Misses mod x v y d' →
        Spec.sumSq d ≤ Spec.sumSq d' ∧ (Spec.sumSq d' ≤ Spec.sumSq d → Spec.sumSq u ≤ Spec.sumSq v) := by
  intro xs
  induction xs with
  | nil => intro cur path resid _ t x y u _ hy; simp at hy
  | cons x0 xs ih =>
    intro cur path resid hx t x y u h1 h2 h3 v d d' hd hd'
    unfold extractLoop at hx
    rw [getEpsLin_eq h hl pinv hF] at hx
    simp only at hx
    obtain ⟨r, hr, hrs⟩ := hF cur (pinv E *ᵥ (x0 - F *ᵥ cur))
    simp only [hr] at hx
    cases hrec : extractLoop pinv F mod r.state xs with
    | error e => simp [hrec] at hx
    | ok pr =>
      obtain ⟨path', resid'⟩ := pr
      simp only [hrec, Except.ok.injEq, Prod.mk.injEq] at hx
      obtain ⟨rfl, rfl⟩ := hx
      rcases t with _ | t
      · simp only [List.getElem?_cons_zero, Option.some.injEq] at h1 h2 h3
        subst h1 h2 h3
        obtain ⟨r1, hr1, rfl⟩ := hd
        obtain ⟨r2, hr2, rfl⟩ := hd'
        rw [hr] at hr1
        cases hr1
        obtain ⟨r3, hr3, hr3s⟩ := hF cur v
        rw [hr3] at hr2
        cases hr2
        rw [hrs, hr3s, ← sub_sub, ← sub_sub]
        obtain ⟨p1, p2, p3, p4⟩ := hp E
        exact pinv_least E (pinv E) p1 p2 p3 p4 _ v
      · exact ih _ _ _ hrec t x y u (by simpa using h1) (by simpa using h2) (by simpa using h3) v d d' hd hd'

/-- **C160 (least squares).** Whatever smoothed states the filter returns: the shock that `extract` reports for a period is the one with which
the linear step from the state reached so far comes closest to the smoothed state of the next period, and the smallest of these. -/
theorem C160_least_squares (h : Succeeded lay orc lMax kMax sched mod) (hl : 1 ≤ lMax) (pinv : Matrix (p ⊕ z) ε K → Matrix ε (p ⊕ z) K)
    (hp : Spec.PinvMP pinv) (F : Matrix (p ⊕ z) (p ⊕ z) K) (E : Matrix (p ⊕ z) ε K) (hF : Spec.LinearTransition mod F E)
    (means path : List (p ⊕ z → K)) (init : p ⊕ z → K) (resid : List (ε → K))
    (hx : extractKF pinv F mod means = .ok (init, path, resid)) (t : Nat) (x y : p ⊕ z → K) (u : ε → K)
    (h1 : path[t]? = some x) (h2 : means[t+1]? = some y) (h3 : resid[t]? = some u) :
    ∃ d, Spec.Misses mod x u y d ∧ ∀ v, ∃ d', Spec.Misses mod x v y d' ∧
      Spec.sumSq d ≤ Spec.sumSq d' ∧ (Spec.sumSq d' ≤ Spec.sumSq d → Spec.sumSq u ≤ Spec.sumSq v) := by
  cases means with
  | nil => simp [extractKF] at hx
  | cons x0 xs =>
    simp only [extractKF] at hx
    cases hr : extractLoop pinv F mod x0 xs with
    | error e => simp [hr] at hx
    | ok pr =>
      obtain ⟨path', resid'⟩ := pr
      simp only [hr, Except.ok.injEq, Prod.mk.injEq] at hx
      obtain ⟨rfl, rfl, rfl⟩ := hx
      obtain ⟨r, hr1, -⟩ := hF x u
      refine ⟨_, ⟨r, hr1, rfl⟩, fun v => ?_⟩
      obtain ⟨r', hr', -⟩ := hF x v
      exact ⟨_, ⟨r', hr', rfl⟩, extractLoop_least h hl pinv hp F E hF xs x0 path' resid' hr t x y u h1 (by simpa using h2) h3 v _ _
        ⟨r, hr1, rfl⟩ ⟨r', hr', rfl⟩⟩

theorem extractLoop_inverts (h : Succeeded lay orc lMax kMax sched mod) (hl : 1 ≤ lMax) (pinv : Matrix (p ⊕ z) ε K → Matrix ε (p ⊕ z) K)
    (hp : Spec.PinvOK pinv) (F : Matrix (p ⊕ z) (p ⊕ z) K) (E : Matrix (p ⊕ z) ε K) (hF : Spec.LinearTransition mod F E)
    (hd : Spec.Distinguishes mod) : ∀ (us : List (ε → K)) (cur : p ⊕ z → K) (res : SimRes z p K),
      simLoop mod true cur us = .ok res → ∃ xs, res.X = cur :: xs ∧ extractLoop pinv F mod cur xs = .ok (xs, us) := by
  intro us
  induction us with
  | nil =>
    intro cur res hr
    simp only [simLoop, Except.ok.injEq] at hr
    subst hr
    exact ⟨[], rfl, rfl⟩
  | cons u us ih =>
    intro cur res hr
    unfold simLoop at hr
    obtain ⟨r, hr1, hr2⟩ := hF cur u
    simp only [hr1] at hr
    cases hl' : simLoop mod true r.state us with
    | error err => simp [hl'] at hr
    | ok res' =>
      simp only [hl', Except.ok.injEq] at hr
      subst hr
      obtain ⟨xs, hX, hxs⟩ := ih _ _ hl'
      refine ⟨r.state :: xs, by simp [hX], ?_⟩
      unfold extractLoop
      rw [getEpsLin_eq h hl pinv hF]
      have hu : pinv E *ᵥ (r.state - F *ᵥ cur) = u := by
        obtain ⟨r', h1', h2'⟩ := hF cur (pinv E *ᵥ (r.state - F *ᵥ cur))
        refine hd cur _ _ r' r h1' hr1 ?_
        rw [h2', hr2, add_sub_cancel_left, mulVec_mulVec, mulVec_mulVec, hp]
      simp only [hu, hr1, hxs]

/-- **C160 (round trip).** `extract` with the Kalman filter returns the initial state, the path and the shocks of every linear simulation, given its
states, iff in the linear model no two shocks have the same effect. -/
theorem C160_roundtrip (h : Succeeded lay orc lMax kMax sched mod) (hl : 1 ≤ lMax) (pinv : Matrix (p ⊕ z) ε K → Matrix ε (p ⊕ z) K)
    (hp : Spec.PinvOK pinv) (F : Matrix (p ⊕ z) (p ⊕ z) K) (E : Matrix (p ⊕ z) ε K) (hF : Spec.LinearTransition mod F E) (op : K → K → K) :
    (∀ init us res, simulate mod true none op init us = .ok res → extractKF pinv F mod res.X = .ok (init, res.X, us)) ↔
      Spec.Distinguishes mod := by
  constructor
  · intro hall x u v r r' hr hr' hs
    have e1 := hall x [u] _ (by simp only [simulate, masked, simLoop, hr]; rfl)
    have e2 := hall x [v] _ (by simp only [simulate, masked, simLoop, hr']; rfl)
    simp only [hs] at e1 e2
    rw [e1] at e2
    simpa using e2
  · intro hd init us res hr
    obtain ⟨xs, hX, hxs⟩ := extractLoop_inverts h hl pinv hp F E hF hd us init res hr
    rw [hX]
    simp only [extractKF, hxs]

end

/-! ## Examples -/

namespace EpsLinEx

/-- The determinant of a matrix with two rows and two columns, the sum of its squares and its adjugate. -/
def det2 (E : Matrix (Fin 1 ⊕ Fin 1) Bool Rat) : Rat := E (.inl 0) false * E (.inr 0) true - E (.inl 0) true * E (.inr 0) false

def nrm2 (E : Matrix (Fin 1 ⊕ Fin 1) Bool Rat) : Rat :=
  E (.inl 0) false * E (.inl 0) false + E (.inl 0) true * E (.inl 0) true + E (.inr 0) false * E (.inr 0) false +
    E (.inr 0) true * E (.inr 0) true

def adj2 (E : Matrix (Fin 1 ⊕ Fin 1) Bool Rat) : Matrix Bool (Fin 1 ⊕ Fin 1) Rat
  | false, .inl _ => E (.inr 0) true
  | false, .inr _ => -E (.inl 0) true
  | true, .inl _ => -E (.inr 0) false
  | true, .inr _ => E (.inl 0) false

/-- The pseudoinverse of such a matrix. -/
def pinv2 (E : Matrix (Fin 1 ⊕ Fin 1) Bool Rat) : Matrix Bool (Fin 1 ⊕ Fin 1) Rat :=
  if det2 E = 0 then (nrm2 E)⁻¹ • Eᵀ else (det2 E)⁻¹ • adj2 E

theorem pinv2_mp : Spec.PinvMP pinv2 := by
  intro E
  have hE : ∀ i e, E (.inl i) e = E (.inl 0) e := fun i e => by rw [Subsingleton.elim i 0]
  have hE' : ∀ i e, E (.inr i) e = E (.inr 0) e := fun i e => by rw [Subsingleton.elim i 0]
  unfold pinv2
  by_cases h : det2 E = 0
  · simp only [if_pos h]
    unfold det2 at h
    have hK : E * Eᵀ * E = nrm2 E • E := by
      unfold nrm2
      ext i j
      rcases i with i | i <;> cases j <;>
        simp only [Matrix.mul_apply, Fintype.sum_sum_type, Matrix.smul_apply, Matrix.transpose_apply, smul_eq_mul, Fintype.sum_bool,
          Finset.univ_unique, Finset.sum_singleton, Fin.default_eq_zero, hE i, hE' i]
      · linear_combination (-E (.inr 0) true) * h
      · linear_combination (E (.inr 0) false) * h
      · linear_combination (E (.inl 0) true) * h
      · linear_combination (-E (.inl 0) false) * h
    by_cases hz : nrm2 E = 0
    · have h0 : E = 0 := by
        unfold nrm2 at hz
        ext i e
        rcases i with i | i <;> cases e <;> simp only [hE i, hE' i, Matrix.zero_apply] <;>
          nlinarith [mul_self_nonneg (E (.inl 0) false), mul_self_nonneg (E (.inl 0) true), mul_self_nonneg (E (.inr 0) false),
            mul_self_nonneg (E (.inr 0) true)]
      subst h0
      simp
    · have hK' : Eᵀ * E * Eᵀ = nrm2 E • Eᵀ := by
        have := congrArg Matrix.transpose hK
        simpa [Matrix.transpose_mul, Matrix.mul_assoc] using this
      refine ⟨?_, ?_, ?_, ?_⟩
      · rw [Matrix.mul_smul, Matrix.smul_mul, hK, smul_smul, inv_mul_cancel₀ hz, one_smul]
      · rw [Matrix.smul_mul, Matrix.smul_mul, Matrix.mul_smul, hK', smul_smul _ (nrm2 E), inv_mul_cancel₀ hz, one_smul]
      · simp [Matrix.transpose_mul]
      · simp [Matrix.transpose_mul]
  · simp only [if_neg h]
    have h1 : adj2 E * E = det2 E • 1 := by
      ext i j
      cases i <;> cases j <;> simp [Matrix.mul_apply, Fintype.sum_sum_type, adj2, det2] <;> ring
    have h2 : E * adj2 E = det2 E • 1 := by
      ext i j
      rcases i with i | i <;> rcases j with j | j <;> obtain rfl := Subsingleton.elim i 0 <;> obtain rfl := Subsingleton.elim j 0 <;>
        simp [Matrix.mul_apply, adj2, det2] <;> ring
    have h1' : (det2 E)⁻¹ • adj2 E * E = 1 := by rw [Matrix.smul_mul, h1, smul_smul, inv_mul_cancel₀ h, one_smul]
    have h2' : E * (det2 E)⁻¹ • adj2 E = 1 := by rw [Matrix.mul_smul, h2, smul_smul, inv_mul_cancel₀ h, one_smul]
    exact ⟨by rw [h2', Matrix.one_mul], by rw [h1', Matrix.one_mul], by rw [h2', Matrix.transpose_one], by rw [h1', Matrix.transpose_one]⟩

end EpsLinEx

open EpsLinEx in
/-- The hypotheses of C160 are met: in the example with a shock to the constraint, no two shocks have the same effect. -/
theorem C160_hypotheses_met : ∃ (mod : Model (Fin 1) Bool (Fin 1) (Fin 1) Rat) (F : Matrix (Fin 1 ⊕ Fin 1) (Fin 1 ⊕ Fin 1) Rat)
    (E : Matrix (Fin 1 ⊕ Fin 1) Bool Rat), Succeeded Ex11.lay Ex11.orc 3 1 (serial 1) mod ∧ Spec.PinvMP pinv2 ∧
    Spec.LinearTransition mod F E ∧ Spec.Distinguishes mod ∧
    ∃ init path, extractKF pinv2 F mod [fun _ => 0, fun i => if i.isLeft then 5/3 else 2/3] = .ok (init, path, [fun _ => 1]) := by
  obtain ⟨mod, h⟩ := ex11_succeeds 3 1
  obtain ⟨c, hm⟩ := genSys_ok h.perm h.gen
  have hkl := hm.kl
  simp only [Ex11.orc, Except.ok.injEq, Prod.mk.injEq] at hkl
  have hF := linear_of_cell h
  have hstep : ∀ st u, ∃ r, tFunc mod st u .none true = .ok r ∧ r.state = Ex11.next st u := by
    intro st u
    obtain ⟨r, h1, h2⟩ := hF st u
    refine ⟨r, h1, ?_⟩
    rw [h2, stack_mulVec, ← hkl.1, ← hkl.2]
    funext i
    rcases i with i | i <;> simp [mulVec, dotProduct, Fintype.sum_sum_type, q0Of, Ex11.omg, Ex11.lam, Ex11.next] <;> ring
  have hd : Spec.Distinguishes mod := by
    intro x u v r r' h1 h2 hs
    obtain ⟨s, hs1, hs2⟩ := hstep x u
    obtain ⟨s', hs1', hs2'⟩ := hstep x v
    rw [h1] at hs1
    rw [h2] at hs1'
    cases hs1
    cases hs1'
    rw [hs2, hs2'] at hs
    have e1 := congrFun hs (.inl 0)
    have e2 := congrFun hs (.inr 0)
    simp only [Ex11.next] at e1 e2
    funext b
    cases b <;> linarith
  refine ⟨mod, _, _, h, pinv2_mp, hF, hd, ?_⟩
  obtain ⟨r, hr1, hr2⟩ := hstep (fun _ => 0) (fun _ => 1)
  have := (C160_roundtrip h (by omega) pinv2 (fun E => (pinv2_mp E).1) _ _ hF (fun a _ => a)).2 hd (fun _ => 0) [fun _ => 1] _
    (by simp only [simulate, masked, simLoop, hr1]; rfl)
  have hs : r.state = fun i => if i.isLeft then 5/3 else 2/3 := by
    rw [hr2]
    funext i
    rcases i with i | i <;> simp [Ex11.next] <;> norm_num
  simp only [hs] at this
  exact ⟨_, _, this⟩

open EpsLinEx in
/-- **C160 (shocks with the same effect).** With the two shocks of `Ex2`, which enter the model alike, a simulation with the first shock alone
is extracted as one with half of each. -/
theorem C160_same_effect : ∃ (mod : Model (Fin 1) Bool (Fin 1) (Fin 1) Rat) (F : Matrix (Fin 1 ⊕ Fin 1) (Fin 1 ⊕ Fin 1) Rat)
    (E : Matrix (Fin 1 ⊕ Fin 1) Bool Rat) (res : SimRes (Fin 1) (Fin 1) Rat) (path : List (Fin 1 ⊕ Fin 1 → Rat)),
    Succeeded Ex2.lay Ex2.orc 3 2 (serial 2) mod ∧ Spec.LinearTransition mod F E ∧
    simulate mod true none (fun a _ => a) 0 [fun e => if e then 0 else 1] = .ok res ∧
    extractKF pinv2 F mod res.X = .ok (0, path, [fun _ => 1/2]) := by
  obtain ⟨mod, h⟩ := Ex2.succeeds (b := -1) 3 2 (Ex2.serial_perm 3 2)
  obtain ⟨c, hm⟩ := genSys_ok h.perm h.gen
  have hkl := hm.kl
  simp only [Ex2.orc, Except.ok.injEq, Prod.mk.injEq] at hkl
  have hF := linear_of_cell h
  obtain ⟨r, hr1, hr2⟩ := hF 0 (fun e => if e then 0 else 1)
  obtain ⟨r', hr1', hr2'⟩ := hF 0 (fun _ => 1/2)
  have hu : pinv2 (stackE ⟨mod.omg, 0, mod.lam, 0⟩) *ᵥ (r.state - padF (stackF ⟨mod.omg, 0, mod.lam, 0⟩) *ᵥ 0) = fun _ => 1/2 := by
    rw [hr2, add_sub_cancel_left, ← hkl.1, ← hkl.2]
    funext e
    cases e <;> simp [pinv2, det2, nrm2, mulVec, dotProduct, Fintype.sum_sum_type, stackE, Ex2.omg, Ex2.lam] <;> norm_num
  refine ⟨mod, _, _, _, [0, r'.state], h, hF, by simp only [simulate, masked, simLoop, hr1]; rfl, ?_⟩
  simp only [extractKF, extractLoop, getEpsLin_eq h (by omega : 1 ≤ 3) pinv2 hF, hu, hr1']

end Pydsge
