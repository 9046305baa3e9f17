import Verif.Props.Solution
import Verif.Examples.Ex8
import Verif.Examples.Ex1

/-!
# C143: coefficients below the tolerance
-/

set_option autoImplicit false
set_option linter.unusedSectionVars false
set_option linter.unusedSimpArgs false

namespace Pydsge

open Matrix Pydsge.Engine Pydsge.Spec Pydsge.Tools Pydsge.GenSys

variable {E ν ε o K : Type} [Fintype E] [Fintype ν] [Fintype ε] [Fintype o]
  [DecidableEq E] [DecidableEq ν] [DecidableEq ε] [Field K] [LinearOrder K] [IsStrictOrderedRing K]
variable {H z p : Type} [DecidableEq H] [Fintype H] [Fintype z] [Fintype p] [DecidableEq z] [DecidableEq p]

/-- The transition reads the states only, not the other variables of the previous period. -/
theorem C143_other_variables_ignored (mod : Model z ε p o K) {st st' : p ⊕ z → K} (h : ∀ i, st (.inr i) = st' (.inr i)) (e : ε → K) (sk : SetK)
    (linear : Bool) : tFunc mod st e sk linear = tFunc mod st' e sk linear := by
  have : (fun i => st (.inr i)) = fun i => st' (.inr i) := funext h
  unfold tFunc tFuncRaw
  rw [this]

section
variable {tol : K} {D : Declared E ν ε K} {Z0 : Matrix o ν K} {Z1 : o → K} [DecidablePred (inall tol (yaml D Z0 Z1))]
  {lay : Layout tol (yaml D Z0 Z1) H z p} {mod : Model z ε p o K}

/-- A variable that is a control, and neither forward- and backward-looking, has its lag in the column of the controls. -/
theorem lagVal_control {v : ν} {j : p} (hj : lay.pi j = .inl v) (hv : ¬ inall tol (yaml D Z0 Z1) v) (st : p ⊕ z → K) :
    lagVal lay st v = st (.inl j) := by
  unfold lagVal
  rw [if_neg hv, ← hj, lay.val_p]

theorem val_update (st : p ⊕ z → K) (j : p) (x : K) {w : ν ⊕ H} (hw : w ≠ lay.pi j) :
    lay.val (Function.update st (.inl j) x) w = lay.val st w := by
  unfold Layout.val
  congr 1
  refine Finset.sum_congr rfl fun j' _ => ?_
  by_cases hj : lay.pi j' = w
  · have : j' ≠ j := fun h => hw (by rw [← hj, h])
    simp [this]
  · simp [hj]

theorem lagVal_update {v : ν} {j : p} (hj : lay.pi j = .inl v) (st : p ⊕ z → K) (x : K) {u : ν} (hu : u ≠ v) :
    lagVal lay (Function.update st (.inl j) x) u = lagVal lay st u := by
  unfold lagVal
  by_cases hi : inall tol (yaml D Z0 Z1) u
  · rw [if_pos hi, if_pos hi]
    refine Finset.sum_congr rfl fun h _ => ?_
    rw [val_update st j x (by rw [hj]; exact fun h => by cases h)]
  · rw [if_neg hi, if_neg hi, val_update st j x (by rw [hj]; exact fun h => hu (Sum.inl.inj h))]

/-- **C143** (fails): if the lag of a variable appears in an equation, but with a coefficient below the tolerance, so that the variable is not a state, then
of any two states that differ in that variable only, at most one gives an expected path that solves the declared equations - and both give the same path. -/
theorem C143_tiny_lags_violate {v : ν} {j : p} (hj : lay.pi j = .inl v) (hv : ¬ inall tol (yaml D Z0 Z1) v) {r : E} (hC : D.C r v ≠ 0)
    {l k : Nat} {st : p ⊕ z → K} {e : ε → K} {X : Nat → p ⊕ z → K} (hX : ExpectedPath mod l k st e X)
    {x : K} (hx : x ≠ st (.inl j))
    (hsolve : SolvesUnderSpell D (lagVal lay st) e (fun s v => lay.val (X s) (.inl v)) l k) :
    ExpectedPath mod l k (Function.update st (.inl j) x) e X ∧
      ¬ SolvesUnderSpell D (lagVal lay (Function.update st (.inl j) x)) e (fun s v => lay.val (X s) (.inl v)) l k := by
  constructor
  · intro s
    obtain ⟨r, h1, h2⟩ := hX s
    refine ⟨r, ?_, h2⟩
    rw [← h1]
    apply C143_other_variables_ignored
    intro i
    cases s with
    | zero => simp [prev]
    | succ s => rfl
  · intro h2
    have a := congrFun (hsolve.eqs 0) r
    have b := congrFun (h2.eqs 0) r
    simp only [Pi.add_apply, prev, shockAt, Pi.zero_apply] at a b
    have hd : (D.C *ᵥ lagVal lay (Function.update st (.inl j) x)) r - (D.C *ᵥ lagVal lay st) r = D.C r v * (x - st (.inl j)) := by
      simp only [mulVec, dotProduct]
      rw [← Finset.sum_sub_distrib, Finset.sum_eq_single v]
      · rw [lagVal_control hj hv, lagVal_control hj hv]
        simp
        ring
      · intro u _ hu
        rw [lagVal_update hj st x hu, sub_self]
      · intro hh; exact absurd (Finset.mem_univ _) hh
    have hz : D.C r v * (x - st (.inl j)) = 0 := by
      rw [← hd]
      linear_combination b - a
    rcases mul_eq_zero.1 hz with hz | hz
    · exact hC hz
    · exact hx (sub_eq_zero.1 hz)

end

/-- Expected paths without binding constraint exist for every solved model. -/
theorem linear_expectedPath {tol : K} {m : Input E ν ε o K} [DecidablePred (inall tol m)] {lay : Layout tol m H z p}
    {orc : Oracle (Rows E H ε) (z ⊕ ε) p K} {lMax kMax : Nat} {mod : Model z ε p o K} {c : Nat → Nat → Cell (z ⊕ ε) p K}
    (hm : SolvedModel lay orc lMax kMax mod c) [Nonempty z] (st : p ⊕ z → K) (e : ε → K) : ∃ X, ExpectedPath mod 0 0 st e X := by
  let X : Nat → p ⊕ z → K := fun s => Nat.rec (xPath c 0 0 (q0Of st e) 0) (fun _ x => xPath c 0 0 (q0Of x 0) 0) s
  refine ⟨X, fun s => ?_⟩
  have he : elapsed 0 0 s = (0, 0) := by
    unfold elapsed
    split_ifs <;> simp
  rw [he]
  cases s with
  | zero => exact ⟨_, tFunc_pair hm st e (Nat.zero_le _) (Nat.zero_le _), rfl⟩
  | succ s => exact ⟨_, tFunc_pair hm (X s) 0 (Nat.zero_le _) (Nat.zero_le _), rfl⟩

/-- **C143 (negation).** In the model `y = 3/4 y(-1) + 1/2000 g(-1) - r(+1) + e`, `g = y - y(-1)`, `r = max(y, -1)` with tolerance `1/1000`, `set_par` succeeds and
there is an expected path that does not solve the declared equations. -/
theorem C143_refuted (lMax kMax : Nat) {mod : Model (Fin 1) (Fin 1) Bool (Fin 1) Rat}
    (h : genSys Ex8.lay Ex8.orc lMax kMax (serial kMax) = .ok mod) :
    OracleOK Ex8.lay Ex8.orc ∧ ∃ st e X, ExpectedPath mod 0 0 st e X ∧
      ¬ SolvesUnderSpell Ex8.decl (lagVal Ex8.lay st) e (fun s v => Ex8.lay.val (X s) (.inl v)) 0 0 := by
  refine ⟨Ex8.oracleOK, ?_⟩
  obtain ⟨c, hm⟩ := genSys_ok (Ex1.serial_perm lMax kMax) h
  haveI : Nonempty (Fin 1) := ⟨0⟩
  obtain ⟨X, hX⟩ := linear_expectedPath hm 0 0
  by_cases hs : SolvesUnderSpell Ex8.decl (lagVal Ex8.lay 0) 0 (fun s v => Ex8.lay.val (X s) (.inl v)) 0 0
  · obtain ⟨h1, h2⟩ := C143_tiny_lags_violate (lay := Ex8.lay) (v := 1) (j := false) rfl (Ex8.not_inall 1) (r := false)
      (by show (-1/2000 : Rat) ≠ 0; norm_num) hX (x := 1) (by show (1 : Rat) ≠ 0; norm_num) hs
    exact ⟨_, _, X, h1, h2⟩
  · exact ⟨0, 0, X, hX, hs⟩

/-- The model of C143_refuted is solved. -/
example (lMax kMax : Nat) : ∃ mod, genSys Ex8.lay Ex8.orc lMax kMax (serial kMax) = .ok mod :=
  Ex8.gen_ok lMax kMax (Ex1.serial_perm lMax kMax)

end Pydsge
