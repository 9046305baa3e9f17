import Verif.Props.Engine
import Verif.Examples.Ex4

/-!
# C88: models without lagged variables
-/

set_option autoImplicit false
set_option linter.unusedSectionVars false

namespace Pydsge

open Matrix Pydsge.Engine Pydsge.Spec Pydsge.Tools Pydsge.GenSys

section Slice

variable {α : Type}

/-- tools.py:84 `state[-dimq + dimeps:]` for a state vector of controls `ps` and then states `zs`, where `dimq` counts states and shocks:
the slice is the states exactly if there are some, or no controls. -/
theorem C88_slice_of_states (ps zs : List α) (dimeps : Nat) :
    sliceFrom (ps ++ zs) (-((zs.length + dimeps : Nat) : Int) + (dimeps : Int)) = zs ↔ zs ≠ [] ∨ ps = [] := by
  have hi : -((zs.length + dimeps : Nat) : Int) + (dimeps : Int) = -(zs.length : Int) := by push_cast; ring
  rw [hi]
  unfold sliceFrom
  cases zs with
  | nil => simp
  | cons a zs =>
    rw [if_neg (by simp; omega)]
    simp only [ne_eq, reduceCtorEq, not_false_eq_true, true_or, iff_true, List.length_append, List.length_cons]
    rw [show (- -((zs.length + 1 : Nat) : Int)).toNat = zs.length + 1 by simp]
    rw [Nat.add_sub_cancel]
    simp

end Slice

section General

variable {z ε p o K : Type} [Fintype z] [Fintype ε] [Fintype p] [Fintype o] [DecidableEq z] [DecidableEq ε] [DecidableEq p]
  [Field K] [LinearOrder K]

/-- Without states and with a control, every transition fails. -/
theorem tFunc_no_states (mod : Model z ε p o K) (hz : IsEmpty z) (hp : Nonempty p) (st : p ⊕ z → K) (eps : ε → K) (sk : SetK) (linear : Bool) :
    tFunc mod st eps sk linear = .error .valueError := by
  unfold tFunc tFuncRaw
  rw [if_pos ⟨Fintype.card_eq_zero_iff.2 hz, Fintype.card_ne_zero⟩]

/-- **C88 (refuted).** For every solved model with controls but without a lagged variable: whatever the state and the shocks, `t_func`
raises, and so do `irfs` of any length and `simulate` of any residuals. -/
theorem C88_static_models_refuted (mod : Model z ε p o K) (hz : IsEmpty z) (hp : Nonempty p) :
    (∀ st eps sk linear, tFunc mod st eps sk linear = .error .valueError) ∧
    (∀ a st T, 0 < T → ∃ e, irfs mod a st T = .error e) ∧
    (∀ linear op init e es, simulate mod linear none op init (e :: es) = .error .valueError) := by
  refine ⟨fun st eps sk linear => tFunc_no_states mod hz hp st eps sk linear, ?_, ?_⟩
  · intro a st T hT
    obtain ⟨n, rfl⟩ := Nat.exists_eq_succ_of_ne_zero (by omega : T ≠ 0)
    unfold irfs irfRun irfStep
    simp only [tFunc_no_states mod hz hp]
    split_ifs with h1
    · exact ⟨_, rfl⟩
    · dsimp only
      by_cases h2 : tooLong mod.lks (setKEff a.setK 0) = true
      · simp only [h2, if_true]
        exact ⟨_, rfl⟩
      · simp only [h2, if_false]
        exact ⟨_, rfl⟩
  · intro linear op init e es
    simp only [simulate, masked, simLoop, tFunc_no_states mod hz hp]

end General

/-- There are such models: `set_par` solves `y + r/2 = e` with the constraint `r = max(y, -1)`, for all table sizes, with routines that do
what they promise; then no transition can be computed. -/
theorem C88_static_model_solved_refuted (lMax kMax : Nat) :
    ∃ mod, genSys Ex4.lay Ex4.orc lMax kMax (serial kMax) = .ok mod ∧ OracleOK Ex4.lay Ex4.orc ∧ NoTiny Ex4.tol Ex4.inp' ∧
      (∀ st eps sk linear, tFunc mod st eps sk linear = .error .valueError) := by
  obtain ⟨mod, h⟩ := Ex4.succeeds lMax kMax (Ex1.serial_perm lMax kMax)
  exact ⟨mod, h, Ex4.oracleOK, Ex4.noTiny, (C88_static_models_refuted mod inferInstance inferInstance).1⟩

section Partial

variable {E ν ε o K : Type} [Fintype E] [Fintype ν] [Fintype ε] [Fintype o]
  [DecidableEq E] [DecidableEq ν] [DecidableEq ε] [Field K] [LinearOrder K] [IsStrictOrderedRing K]
variable {H z p : Type} [DecidableEq H] [Fintype H] [Fintype z] [Fintype p] [DecidableEq z] [DecidableEq p]
variable {tol : K} {m : Input E ν ε o K} [DecidablePred (inall tol m)] {lay : Layout tol m H z p}
  {orc : Oracle (Rows E H ε) (z ⊕ ε) p K} {lMax kMax : Nat} {sched : Nat → List Nat} {mod : Model z ε p o K}

/-- **C88 (partial).** With at least one lagged variable (in `Succeeded`) and `k_max ≥ 1`, every simulation of a solved model runs to its end, and
has one state per residual after the initial one.

Missing: models without lagged variables (`C88_static_models_refuted`). -/
theorem C88_static_models_partial (h : Succeeded lay orc lMax kMax sched mod) (hk1 : 1 ≤ kMax) (linear : Bool) (op : K → K → K)
    (eps : List (ε → K)) (init : p ⊕ z → K) :
    ∃ res, simulate mod linear none op init eps = .ok res ∧ res.X.length = eps.length + 1 := by
  simp only [simulate, masked]
  induction eps generalizing init with
  | nil => exact ⟨_, rfl, rfl⟩
  | cons e es ih =>
    obtain ⟨r, hr⟩ := C05_transition_stays_inside_partial h hk1 init e linear
    obtain ⟨res, h1, h2⟩ := ih r.state
    exact ⟨⟨init :: res.X, (r.l, r.k) :: res.LK, r.flag ||| res.flag⟩, by simp only [simLoop, hr, h1], by simp [h2]⟩

end Partial

/-- The hypotheses of the partial theorem are met. -/
example : ∃ mod, Succeeded Ex1.lay Ex1.orc 3 3 (serial 3) mod := Ex1.succeeds 3 3 (Ex1.serial_perm 3 3)

end Pydsge
