import Verif.Props.Traj
import Verif.Props.Convex
import Verif.Examples.Ex3Run

/-!
# C12, C65: which spell `traj` and `k_map` look at
-/

set_option autoImplicit false
set_option linter.unusedSectionVars false

namespace Pydsge

open Matrix Pydsge.Engine Pydsge.Spec Pydsge.Tools Pydsge.GenSys

variable {E ν ε o K : Type} [Fintype E] [Fintype ν] [Fintype ε] [Fintype o]
  [DecidableEq E] [DecidableEq ν] [DecidableEq ε] [Field K] [LinearOrder K] [IsStrictOrderedRing K]
variable {H z p : Type} [DecidableEq H] [Fintype H] [Fintype z] [Fintype p] [DecidableEq z] [DecidableEq p]
variable {tol : K} {m : Input E ν ε o K} [DecidablePred (inall tol m)] {lay : Layout tol m H z p}
  {orc : Oracle (Rows E H ε) (z ⊕ ε) p K} {lMax kMax : Nat} {sched : Nat → List Nat} {mod : Model z ε p o K}

/-- The spell of a transition is the one that the search finds. -/
theorem find_of_step (h : Succeeded lay orc lMax kMax sched mod) (hk : 0 < kMax) (st : p ⊕ z → K) (e : ε → K) (r : Step z p K)
    (hr : tFunc mod st e .none false = .ok r) :
    findLk (checkCnst mod.tables (q0Of st e)) mod.xbar mod.tables.L mod.tables.Kk = .ok (r.l, r.k, r.flag) := by
  obtain ⟨c, hm, hc⟩ := search_cases h hk
  obtain ⟨l, k, flag, -, -, h1, h2, -⟩ := hc st e
  obtain ⟨M', hS⟩ := hm.eng
  rw [h1] at hr
  cases hr
  rw [hS.shapeL, hS.shapeK, h2]

/-- **C65 (partial)**: `k_map` looks at the spell that is given; what is not given is taken from the spell that `t_func` finds, or is `l = 0` if `k` is
given.

Missing: `l = 0` without `k` (`C65_zero_refuted`). -/
theorem C65_pair_partial (h : Succeeded lay orc lMax kMax sched mod) (hk : 0 < kMax) (st : p ⊕ z → K) (e : ε → K) (r : Step z p K)
    (hr : tFunc mod st e .none false = .ok r) :
    kMapLK mod (q0Of st e) none none = .ok (r.l, r.k) ∧
    (∀ l, l ≠ 0 → kMapLK mod (q0Of st e) (some l) none = .ok (l, r.k)) ∧
    (∀ k, kMapLK mod (q0Of st e) none (some k) = .ok (0, k)) ∧
    ∀ l k, kMapLK mod (q0Of st e) (some l) (some k) = .ok (l, k) := by
  have hf := find_of_step h hk st e r hr
  refine ⟨?_, fun l hl => ?_, fun _ => rfl, fun _ _ => rfl⟩
  · simp only [kMapLK, hf]
  · simp only [kMapLK, hf, if_neg hl]

/-- **C65 (refuted)** for `l = 0` without `k`: it is ignored. In the third example, `t_func` finds `(1,1)` after the shock `-2`; `k_map(l=0)` looks at
`(1,1)`, and not at `(0,1)`. -/
theorem C65_zero_refuted : ∃ mod r, Succeeded Ex3.lay Ex3.orc 3 1 (serial 1) mod ∧ tFunc mod 0 (fun _ => -2) .none false = .ok r ∧ r.l = 1 ∧
    kMapLK mod (q0Of (0 : Bool ⊕ Fin 1 → Rat) fun _ => -2) (some 0) none = .ok (1, 1) ∧
    ∀ tt, kMap mod tt (q0Of (0 : Bool ⊕ Fin 1 → Rat) fun _ => -2) (some 0) none = kMap mod tt (q0Of (0 : Bool ⊕ Fin 1 → Rat) fun _ => -2) (some 1) (some 1) := by
  obtain ⟨mod, h⟩ := Ex3.succeeds 3 1 (Ex1.serial_perm 3 1)
  obtain ⟨r, r1, r2, r3, -⟩ := Ex3.later_run h
  have hf := find_of_step h (by omega) 0 (fun _ => -2) r r1
  rw [r2, r3] at hf
  have hz : kMapLK mod (q0Of (0 : Bool ⊕ Fin 1 → Rat) fun _ => -2) (some 0) none = .ok (1, 1) := by
    simp only [kMapLK, hf, if_true]
  refine ⟨mod, r, h, r1, r2, hz, fun tt => ?_⟩
  unfold kMap
  rw [hz]
  rfl

/-- **C12**: `traj` looks at the spell that is given if both numbers are given, and otherwise at the one that `t_func` finds: a single number is
ignored. -/
theorem C12_pair (h : Succeeded lay orc lMax kMax sched mod) (hk : 0 < kMax) (st : p ⊕ z → K) (e : ε → K) (r : Step z p K)
    (hr : tFunc mod st e .none false = .ok r) :
    (∀ l k, trajLK mod (q0Of st e) (some l) (some k) = .ok (l, k)) ∧ trajLK mod (q0Of st e) none none = .ok ((r.l : Int), (r.k : Int)) ∧
    (∀ l, trajLK mod (q0Of st e) (some l) none = .ok ((r.l : Int), (r.k : Int))) ∧
    ∀ k, trajLK mod (q0Of st e) none (some k) = .ok ((r.l : Int), (r.k : Int)) := by
  have hf := find_of_step h hk st e r hr
  refine ⟨fun _ _ => rfl, ?_, fun l => ?_, fun k => ?_⟩ <;> simp only [trajLK, hf]

end Pydsge
