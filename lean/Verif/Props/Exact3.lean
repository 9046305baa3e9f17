import Verif.Props.Static
import Verif.Props.Masked

/-!
# Exact conditions, third set: C88 (which models can be simulated), C165 (what `verbose=2` does for a model from a dictionary)
-/

set_option autoImplicit false
set_option linter.unusedSectionVars false
set_option linter.unusedSimpArgs false

namespace Pydsge

open Matrix Pydsge.Engine Pydsge.Spec Pydsge.Tools Pydsge.GenSys

section Static

variable {E ν ε o K : Type} [Fintype E] [Fintype ν] [Fintype ε] [Fintype o]
  [DecidableEq E] [DecidableEq ν] [DecidableEq ε] [Field K] [LinearOrder K] [IsStrictOrderedRing K]
variable {H z p : Type} [DecidableEq H] [Fintype H] [Fintype z] [Fintype p] [DecidableEq z] [DecidableEq p]
variable {tol : K} {m : Input E ν ε o K} [DecidablePred (inall tol m)] {lay : Layout tol m H z p}
  {orc : Oracle (Rows E H ε) (z ⊕ ε) p K} {lMax kMax : Nat} {sched : Nat → List Nat} {mod : Model z ε p o K}

/-- **C88, exact condition.** Once `set_par` has solved a model (with `k_max ≥ 1`), every simulation runs to its end if and only if the model has a
state, that is a variable with a lag; without one, no simulation of a single period runs. -/
theorem C88_exact (gen : genSys lay orc lMax kMax sched = .ok mod) (perm : ∀ l < lMax + 1, (sched l).Perm (List.range (kMax + 1)))
    (hO : OracleOK lay orc) (ht : NoTiny tol m) (hE : Fintype.card E + 1 = Fintype.card ν) (hk1 : 1 ≤ kMax) :
    ((∀ linear op init eps, ∃ res, simulate mod linear none op init eps = .ok res ∧ res.X.length = eps.length + 1) ↔ Nonempty z) ∧
    ((∃ linear op init e es res, simulate mod linear none op init (e :: es) = .ok res) ↔ Nonempty z) := by
  have hp : IsEmpty z → Nonempty p := by
    intro hz
    have h1 := lay.square
    have h2 : Fintype.card z = 0 := Fintype.card_eq_zero
    simp only [Rows, Fintype.card_sum, Fintype.card_unit] at h1
    exact Fintype.card_pos_iff.1 (by omega)
  have hyes : Nonempty z → ∀ linear op init eps, ∃ res, simulate mod linear none op init eps = .ok res ∧ res.X.length = eps.length + 1 :=
    fun hz linear op init eps => C88_static_models_partial ⟨gen, perm, hO, ht, hE, hz⟩ hk1 linear op eps init
  have hno : ¬ Nonempty z → ∀ linear op init e es, simulate mod linear none op init (e :: es) = .error .valueError :=
    fun hz => (C88_static_models_refuted mod (not_nonempty_iff.1 hz) (hp (not_nonempty_iff.1 hz))).2.2
  refine ⟨⟨fun h => ?_, hyes⟩, ⟨?_, fun hz => ?_⟩⟩
  · by_contra hz
    obtain ⟨res, h1, _⟩ := h false (fun a _ => a) (fun _ => 0) [fun _ => 0]
    rw [hno hz] at h1
    cases h1
  · rintro ⟨linear, op, init, e, es, res, h⟩
    by_contra hz
    rw [hno hz] at h
    cases h
  · obtain ⟨res, h1, _⟩ := hyes hz false (fun a _ => a) (fun _ => 0) [fun _ => 0]
    exact ⟨_, _, _, _, _, res, h1⟩

end Static

section Dict
open Pydsge.Slices Pydsge.Masked

variable {E ν ε o H K : Type} [Fintype E] [Fintype ν] [Fintype ε] [Fintype o] [DecidableEq E] [DecidableEq ν] [DecidableEq ε] [DecidableEq H]
  [Field K] [LinearOrder K] [IsStrictOrderedRing K]
variable (tol : K) (m : Input E ν ε o K) (hyb : H → ν) [DecidablePred (inall tol m)]

/-- **C165, exact condition.** With `verbose=2`, `gen_sys` on a model from a dictionary (no attribute `variables`) ends in an `AttributeError` if and
only if some variable has a lead or a lag or is not used at all, that is if there is a name to print; otherwise it does what it does
without messages. -/
theorem C165_dict_exact (hr : ∀ v, (∃ h, hyb h = v) → inall tol m v) (htol0 : 0 < tol) (htol : tol ≤ 1) {order : List ν} {hybs : List H}
    {shocks : List ε} (ho : Spec.Enumerates order) (hxOnly : Bool) {verbose : Nat} (h2 : 1 < verbose) :
    ((∃ v, (∃ e, tol ≤ |m.AA0 e v|) ∨ (∃ e, tol ≤ |m.CC0 e v|) ∨ ¬ Spec.Used tol m v) →
      genVerbose tol m hyb none order hybs shocks hxOnly verbose = .error .attributeError) ∧
    ((¬ ∃ v, (∃ e, tol ≤ |m.AA0 e v|) ∨ (∃ e, tol ≤ |m.CC0 e v|) ∨ ¬ Spec.Used tol m v) →
      genVerbose tol m hyb none order hybs shocks hxOnly verbose = genMasked tol m hyb order hybs shocks hxOnly) := by
  classical
  have hcol : ∀ (A : Matrix E ν K) (j : ν), (¬ fast0Col tol A j) ↔ ∃ e, tol ≤ |A e j| := by
    intro A j
    unfold fast0Col
    push Not
    rfl
  have hmem : ∀ (P : ν → Prop) [DecidablePred P], true ∈ order.map (fun v => decide (P v)) ↔ ∃ v, P v := by
    intro P _
    simp only [List.mem_map, decide_eq_true_eq]
    exact ⟨fun ⟨v, _, h⟩ => ⟨v, h⟩, fun ⟨v, h⟩ => ⟨v, ho.2 v, h⟩⟩
  have hmiss : true ∈ (ySpace (allVars order hybs) shocks).map (fun y => decide (¬ (inq tol m hyb y ∨ inp tol m hyb y))) ↔
      ∃ v, ¬ Spec.Used tol m v := by
    unfold ySpace allVars
    simp only [List.mem_map, decide_eq_true_eq, List.mem_append]
    constructor
    · rintro ⟨y, hy, hn⟩
      rcases y with (v | a) | e
      · exact ⟨v, fun hu => hn ((placed_var (ε := ε) tol m hyb hr htol0 htol v).2 hu)⟩
      · exact absurd (placed_aux (ε := ε) tol m hyb htol a) hn
      · exact absurd (placed_shock tol m hyb htol e) hn
    · rintro ⟨v, hn⟩
      refine ⟨.inl (.inl v), .inl ⟨_, .inl ⟨v, ho.2 v, rfl⟩, rfl⟩, fun hp => hn ((placed_var (ε := ε) tol m hyb hr htol0 htol v).1 hp)⟩
  have key : genMsgs tol m hyb none order hybs shocks =
      if ∃ v, (∃ e, tol ≤ |m.AA0 e v|) ∨ (∃ e, tol ≤ |m.CC0 e v|) ∨ ¬ Spec.Used tol m v then .error .attributeError else .ok ⟨[], [], [], []⟩ := by
    unfold genMsgs
    simp only [namesFrom_none, hmiss]
    by_cases h1 : ∃ v, ∃ e, tol ≤ |m.AA0 e v|
    · rw [if_pos ((hmem _).2 (h1.imp fun v hv => (hcol m.AA0 v).2 hv))]
      exact (if_pos (h1.imp fun v hv => .inl hv)).symm
    · rw [if_neg (fun h => h1 (((hmem _).1 h).imp fun v hv => (hcol m.AA0 v).1 hv))]
      simp only
      by_cases h3 : ∃ v, ∃ e, tol ≤ |m.CC0 e v|
      · rw [if_pos ((hmem _).2 (h3.imp fun v hv => (hcol m.CC0 v).2 hv))]
        exact (if_pos (h3.imp fun v hv => .inr (.inl hv))).symm
      · rw [if_neg (fun h => h3 (((hmem _).1 h).imp fun v hv => (hcol m.CC0 v).1 hv))]
        simp only
        rw [if_neg (fun h => h1 (((hmem _).1 h).imp fun v hv => (hcol m.AA0 v).1 hv.1))]
        simp only
        by_cases h4 : ∃ v, ¬ Spec.Used tol m v
        · rw [if_pos h4, if_pos (h4.imp fun v hv => .inr (.inr hv))]
        · rw [if_neg h4, if_neg]
          rintro ⟨v, hv | hv | hv⟩
          · exact h1 ⟨v, hv⟩
          · exact h3 ⟨v, hv⟩
          · exact h4 ⟨v, hv⟩
  constructor
  · intro h
    unfold genVerbose
    rw [if_pos h2, key, if_pos h]
  · intro h
    unfold genVerbose
    rw [if_pos h2, key, if_neg h]

end Dict

end Pydsge
