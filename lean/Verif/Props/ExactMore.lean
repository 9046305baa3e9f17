import Verif.Props.Params
import Verif.Props.GenSys
import Verif.Props.Irfs
import Verif.Props.Mask
import Verif.Props.Traj
import Verif.Props.SimMany

/-!
# Exact conditions for C24, C26, C29, C33, C34, C66, C71, C110
-/

set_option autoImplicit false
set_option linter.unusedSectionVars false
set_option linter.unusedSimpArgs false

namespace Pydsge

/-! ## C24, C26, C71: `gen_sys` -/

section
open Matrix Pydsge.GenSys Pydsge.Spec
variable {E ν ε o K : Type} [Fintype E] [Fintype ν] [Fintype ε] [Fintype o]
  [DecidableEq E] [DecidableEq ν] [DecidableEq ε] [Field K] [LinearOrder K] [IsStrictOrderedRing K]
variable {H z p : Type} [DecidableEq H] [Fintype H] [Fintype z] [Fintype p] [DecidableEq z] [DecidableEq p]
variable {tol : K} {m : Input E ν ε o K} [DecidablePred (inall tol m)]

/-- **C24**, exact condition: the expectation of a variable is in the solved system, with its coefficient, if and only if the constraint does not contain
the lag of this variable. -/
theorem C24_iff {lay : Layout tol m H z p} (ht : NoTiny tol m) (hb : m.fb0 m.cvar ≠ 0) (e : E) (v : ν) (hA : m.AA0 e v ≠ 0) :
    (∃ j : p, lay.pi j = .inl v ∧ PU lay (.inl (.inl (.inl e))) (.inr j) = -m.AA0 e v ∧
      PR lay (.inl (.inl (.inl e))) (.inr j) = -m.AA0 e v) ↔ m.fc0 v = 0 := by
  have hn : fcN m v = 0 ↔ m.fc0 v = 0 := by
    unfold fcN
    rw [div_eq_zero_iff, neg_eq_zero]
    exact or_iff_left hb
  have hq : inq tol m lay.hyb (.inl (.inl v)) ↔ m.fc0 v ≠ 0 := by
    have hcol : fast0Col tol (CC1 tol m lay.hyb) (.inl (.inl v)) := by
      intro r
      rcases r with (e' | h) | e'
      · simp only [CC1]
        split_ifs with hi
        · simpa using ht.pos
        · have : fast0Col tol m.CC0 v := by
            by_contra hc
            exact hi ⟨fun h => hA (ht.A _ _ (h e)), hc⟩
          exact this e'
      · simpa [CC1] using ht.pos
      · simpa [CC1] using ht.pos
    have hy : |fcY (H := H) m (.inl (.inl v))| = |fcN m v| := by
      simp only [fcY]
      cases m.fd0 <;> simp
    unfold inq fast0
    rw [hy]
    constructor
    · rintro (h | h)
      · exact absurd hcol h
      · intro h0
        rw [hn.2 h0, abs_zero] at h
        exact h ht.pos
    · intro h
      exact .inr fun h1 => h (hn.1 (ht.fc v h1))
  constructor
  · rintro ⟨j, hj, -⟩
    have := ((lay.pi_range (.inl v)).1 ⟨j, hj⟩).2
    by_contra h
    exact this (hq.2 h)
  · intro h
    have hp : inp tol m lay.hyb (.inl (.inl v)) :=
      ⟨.inl fun hc => hA (ht.A e v (hc (.inl (.inl e)))), fun h' => (hq.1 h') h⟩
    obtain ⟨j, hj⟩ := (lay.pi_range (.inl v)).2 hp
    refine ⟨j, hj, ?_, ?_⟩
    · simp only [PU, AAc, AA1, hj]
    · simp only [PR, AAc, AA1, hj]

/-- **C23**, exact condition: the constraint row of the solved system stands for the declared constraint if and only if the constraint contains no lags, and no shocks together with
the constrained variable on the right hand side. -/
theorem C23_iff (H : Type) (D : Declared E ν ε K) (Z0 : Matrix o ν K) (Z1 : o → K) (hself : D.rb D.cvar ≠ 1) :
    (∀ x xlag eps, conRow H (yaml D Z0 Z1) x xlag eps = 0 ↔ ConstraintHolds D x xlag eps) ↔ D.rc = 0 ∧ (D.rb D.cvar = 0 ∨ D.rd = 0) := by
  have h1 : (1 : K) - D.rb D.cvar ≠ 0 := sub_ne_zero.2 (Ne.symm hself)
  constructor
  · intro h
    constructor
    · funext v
      have := (h (Pi.single D.cvar (D.rc v / (1 - D.rb D.cvar))) (Pi.single v 1) 0).2 (by
        unfold ConstraintHolds
        rw [dotProduct_single, dotProduct_single, dotProduct_zero, Pi.single_eq_same]
        field_simp
        ring)
      rw [conRow_yaml H D Z0 Z1 hself, dotProduct_single, dotProduct_single, dotProduct_zero, Pi.single_eq_same, add_zero, div_eq_zero_iff,
        or_iff_left h1] at this
      have h2 : (D.rb D.cvar * (D.rc v / (1 - D.rb D.cvar)) - D.rc v / (1 - D.rb D.cvar) - D.rc v * 1) = -(2 * D.rc v) := by
        field_simp
        ring
      rw [h2] at this
      simpa using this
    · by_contra hc
      push Not at hc
      obtain ⟨hb, hd⟩ := hc
      apply hd
      funext e
      have := (h (Pi.single D.cvar (D.rd e / (1 - D.rb D.cvar))) 0 (Pi.single e 1)).2 (by
        unfold ConstraintHolds
        rw [dotProduct_single, dotProduct_single, dotProduct_zero, Pi.single_eq_same]
        field_simp
        ring)
      rw [conRow_yaml H D Z0 Z1 hself, dotProduct_single, dotProduct_single, dotProduct_zero, Pi.single_eq_same] at this
      have h2 : D.rb D.cvar * D.rd e = 0 := by
        field_simp at this
        apply mul_left_cancel₀ h1
        linear_combination -this
      simpa [hb] using h2
  · rintro ⟨h2, h3⟩ x xlag eps
    exact C23_constraint_as_declared_partial H D Z0 Z1 h2 hself h3 x xlag eps

/-- **C72**, exact condition: zero loadings of the shocks are the same as none if and only if the constraint contains no lags. -/
theorem C72_iff (H : Type) (m : Input E ν ε o K) (hfb : m.fb0 m.cvar ≠ 0) :
    (∀ y, fcY (H := H) { m with fd0 := some 0 } y = fcY (H := H) { m with fd0 := none } y) ↔ m.fc0 = 0 := by
  constructor
  · intro h
    funext v
    by_contra hc
    exact C72_zero_fd_is_none_refuted H m v hc hfb (h (.inl (.inl v)))
  · intro h y
    exact C72_zero_fd_is_none_partial H m h y

/-- **C26**, exact condition: every name is there once if and only if no variable in the list is called like an auxiliary one in the list. -/
theorem C26_iff (hyb : H → ν) (name : ν → String) (hname : Function.Injective name) (hinj : Function.Injective hyb) (vv0 : List (ν ⊕ H)) (hn : vv0.Nodup)
    (hall : ∀ w, w ∈ vv0) (hsh : ∀ e, inq tol m hyb (.inr e)) : ((vv tol m hyb vv0).map (nameOf name hyb)).Nodup ↔
      ∀ v h, .inl v ∈ vv tol m hyb vv0 → .inr h ∈ vv tol m hyb vv0 → name v ≠ name (hyb h) ++ "_lag" := by
  obtain ⟨h1, -⟩ := C26_positions tol m hyb vv0 hn hall [] hsh
  rw [List.nodup_map_iff_inj_on h1]
  constructor
  · intro h v a hv ha he
    have := h (.inl v) hv (.inr a) ha (by simpa [nameOf] using he)
    cases this
  · intro h a ha b hb hab
    rcases a with a | a <;> rcases b with b | b <;> simp only [nameOf] at hab
    · rw [hname hab]
    · exact absurd hab (h a b ha hb)
    · exact absurd hab.symm (h b a hb ha)
    · have := String.toList_inj.2 hab
      rw [String.toList_append, String.toList_append] at this
      rw [hinj (hname (String.toList_inj.1 (List.append_cancel_right this)))]

/-- **C71**, all outcomes of `l_max` without `k_max`. -/
theorem C71_iff (prev : Option (Int × Int)) (l : Int) :
    ((∃ lk, newLks (some l) none prev = .ok lk) ↔ 2 ≤ l) ∧ (l < 2 → newLks (some l) none prev = .error .typeError) := by
  have h2 : l < 2 → newLks (some l) none prev = .error .typeError := by
    intro h
    unfold newLks
    simp only [if_pos h]
  refine ⟨⟨fun ⟨lk, h⟩ => ?_, fun h => ⟨_, C71_l_max_alone_partial prev l h⟩⟩, h2⟩
  by_contra hc
  rw [h2 (by omega)] at h
  cases h

end

/-! ## C66, C110: shocks -/

section
open Pydsge.Tools
variable {ε K : Type} [DecidableEq ε] [Field K] [LinearOrder K]

/-- **C66**, exact condition: the sizes for a shock and a period add up if and only if those before the last one add up to zero. -/
theorem C66_iff (a b : List (ShockSpec ε K)) (s : ShockSpec ε K) (t : Nat) (hs : s.2.2 = (t : Int))
    (hb : ∀ s' ∈ b, ¬ (s'.1 = s.1 ∧ s'.2.2 = (t : Int))) :
    shkVec (a ++ s :: b) t s.1 = shockSum (a ++ s :: b) t s.1 ↔ shockSum a t s.1 = 0 := by
  have h1 : shkVec (a ++ s :: b) t s.1 = s.2.1 := by
    rw [shkVec_append, List.foldl_cons, if_pos hs, shkVec_skip b t s.1 hb, Function.update_self]
  have h2 : shockSum (a ++ s :: b) t s.1 = shockSum a t s.1 + s.2.1 := by
    have := shockSum_absent hb
    unfold shockSum at this ⊢
    rw [List.map_append, List.sum_append, List.map_cons, List.sum_cons, this, add_zero, if_pos ⟨rfl, hs⟩]
  rw [h1, h2]
  constructor
  · intro h; linear_combination -h
  · intro h; linear_combination -h

/-- **C66**: sizes that cancel before the last one. -/
example : shkVec ([((0 : Fin 1), (1 : Rat), 0), (0, -1, 0), (0, 3, 0)] : List (ShockSpec (Fin 1) Rat)) 0 0 =
    shockSum ([((0 : Fin 1), (1 : Rat), 0), (0, -1, 0), (0, 3, 0)] : List (ShockSpec (Fin 1) Rat)) 0 0 :=
  (C66_iff [((0 : Fin 1), (1 : Rat), 0), (0, -1, 0)] [] (0, 3, 0) 0 rfl (by simp)).2 (by simp [shockSum])

/-- **C110**, exact condition: a mask replaces the shock if and only if its entry is NaN or zero, or the shock is one. -/
theorem C110_iff (mask : Option K) (e : K) :
    applyMask (· * ·) mask e = Spec.replaced mask e ↔ ∀ x, mask = some x → x = 0 ∨ e = 1 := by
  cases mask with
  | none => simp [applyMask, Spec.replaced]
  | some x =>
    simp only [applyMask, Spec.replaced, Option.getD_some, Option.some.injEq, forall_eq']
    constructor
    · intro h
      by_cases hx : x = 0
      · exact .inl hx
      · exact .inr (mul_left_cancel₀ hx (by rw [h, mul_one]))
    · rintro (rfl | rfl) <;> simp

end

/-! ## C29, C33, C34: parameters -/

section
open Pydsge.Params
variable {K PP VV HX LS TT QQ : Type} [Field K] [LinearOrder K] {S : Solver K PP VV HX LS TT QQ} {D : Decl K} {dr : Draws K} {g : GenArgs}
  {sq : QQ → QQ} {ob : Obj K PP VV HX LS TT QQ}

/-- **C29**: after a failed `set_par(name, x)` the model has the new value. -/
theorem C29_failed_value (h : WF D) (name : String) (x : K) {i : Nat} (hi : D.names[i]? = some name) {v : List K} (hv : ob.a.par = some v)
    (hl : v.length = D.names.length) {ob' : Obj K PP VV HX LS TT QQ} {e : PyErr} (hs : setPar S D dr g sq ob (.str name) (some x) = (ob', .error e)) :
    ob'.a.par = some (v.set i x) := by
  have hk : D.names.idxOf? name = some i := by
    obtain ⟨j, h1, h2⟩ := idxOf?_of_mem (List.mem_of_getElem? hi)
    obtain ⟨a, ha⟩ := List.getElem?_eq_some_iff.1 h2
    obtain ⟨b, hb⟩ := List.getElem?_eq_some_iff.1 hi
    rw [h1, (h.nodup.getElem_inj_iff).1 (ha.trans hb.symm)]
  unfold setPar at hs
  simp only [hk] at hs
  have hc : curPar D ob.a = v := by simp only [curPar, hv]
  rw [hc] at hs
  cases hg : (genSysYaml S D g ob.a (some (v.set i x))).2 with
  | none =>
    obtain ⟨o, h3, -⟩ := finishSet_ok (dr := dr) h sq (by rw [List.length_set, hl]) hg
    rw [h3] at hs
    simp at hs
  | some e3 =>
    rw [finishSet_err sq hg, Prod.mk.injEq] at hs
    rw [← hs.1]
    exact genSysYaml_par _ _

/-- **C29**, exact condition for single parameters: a failed `set_par(name, x)` leaves the parameters as they were if and only if the value was `x` already. -/
theorem C29_failed_iff (h : WF D) (name : String) (x : K) {i : Nat} (hi : D.names[i]? = some name) {v : List K} (hv : ob.a.par = some v)
    (hl : v.length = D.names.length) {ob' : Obj K PP VV HX LS TT QQ} {e : PyErr} (hs : setPar S D dr g sq ob (.str name) (some x) = (ob', .error e)) :
    ob'.a.par = ob.a.par ↔ v[i]? = some x := by
  rw [C29_failed_value h name x hi hv hl hs, hv, Option.some.injEq]
  have hil : i < v.length := by rw [hl]; exact (List.getElem?_eq_some_iff.1 hi).1
  constructor
  · intro he
    rw [← he, List.getElem?_set_self hil]
  · intro he
    obtain ⟨_, h2⟩ := List.getElem?_eq_some_iff.1 he
    rw [← h2, List.set_getElem_self]

/-- **C73**, exact condition: feeding the vector of the estimated parameters back leaves the parameters as they are if and only if not all parameters are estimated, or
every parameter has the value of the one at its position in the prior. -/
theorem C73_iff (h : WF D) {v : List K} (hv : ob.a.par = some v) (hl : v.length = D.names.length) (p : Prior K) (hp : D.prior = some p) {w : List K}
    (hg : getPar S D dr g ob .none none false 1 = (ob, .ok (.cand (.vec w)))) {ob' : Obj K PP VV HX LS TT QQ} {r : ParVal K QQ}
    (hs : setPar S D dr g sq ob (.vec w) none = (ob', .ok r)) :
    ob'.a.par = some v ↔ p.names.length ≠ D.names.length ∨ ∀ (i j : Nat) (s : String), p.names[j]? = some s → D.names[i]? = some s → v[j]? = v[i]? := by
  by_cases hlen : p.names.length = D.names.length
  · have hb : ∀ i ∈ p.arg, i < v.length := by rw [hl]; exact h.bound hp
    obtain ⟨w', hw, hwl, hwg⟩ := fancyGet_ok v p.arg hb
    have hww : w = w' := by
      unfold getPar at hg
      simp only [startPars_some hv, takePrior, hp, hw, if_false, Bool.false_eq_true, candPar, gt_iff_lt, lt_irrefl, Prod.mk.injEq,
        Except.ok.injEq, ParVal.cand.injEq, Cand.vec.injEq, true_and] at hg
      exact hg.symm
    subst hww
    have hwD : w.length = D.names.length := by rw [hwl, h.argLen hp, hlen]
    unfold setPar at hs
    simp only [hp, h.len] at hs
    rw [if_pos hwD] at hs
    obtain ⟨_, -, h2⟩ := finishSet_inv h sq hwD hs
    have key : ∀ (i j : Nat) (s : String), p.names[j]? = some s → D.names[i]? = some s → w[j]? = v[i]? := by
      intro i j s hj hi
      apply hwg
      obtain ⟨hi1, hi2⟩ := List.getElem?_eq_some_iff.1 hi
      rw [(h.prior p hp).2.1, List.getElem?_map, hj, Option.map_some, ← hi2, h.nodup.idxOf_getElem i hi1]
    rw [h2, Option.some.injEq]
    constructor
    · intro e
      right
      intro i j s hj hi
      rw [← key i j s hj hi, e]
    · rintro (hc | hc)
      · exact absurd hlen hc
      · apply List.ext_getElem?
        intro j
        by_cases hj : j < p.names.length
        · have hj' : p.names[j]? = some p.names[j] := List.getElem?_eq_getElem hj
          have hm : p.names[j] ∈ D.names := (h.prior p hp).2.2 _ (List.getElem_mem hj)
          obtain ⟨i, -, hi⟩ := idxOf?_of_mem hm
          rw [key i j _ hj' hi, hc i j _ hj' hi]
        · rw [List.getElem?_eq_none (by omega), List.getElem?_eq_none (by omega)]
  · exact ⟨fun _ => .inl hlen, fun _ => (C73_estimated_round_trip_partial h hv hl p hp (.inl hlen) hg hs).2⟩

/-- **C33**, exact condition: if there is a prior and the set that `get_par` returns can be solved, then `set_par` sets it if and only if the name of the set is neither as
long as the number of parameters nor as the number of estimated ones. -/
theorem C33_iff (h : WF D) (p : Prior K) (hp : D.prior = some p) (s : String) {ob1 : Obj K PP VV HX LS TT QQ} {v : List K} (hv : v.length = D.names.length)
    (hg : getPar S D dr g ob (.str s) none true 1 = (ob1, .ok (.vec v))) (hsol : (genSysYaml S D g ob1.a (some v)).2 = none) :
    (∃ ob', setPar S D dr g sq ob (.str s) none = (ob', .ok (.vec v)) ∧ ob'.a.par = some v) ↔
      s.length ≠ D.names.length ∧ s.length ≠ p.names.length := by
  constructor
  · rintro ⟨ob', h1, -⟩
    unfold setPar at h1
    simp only [hp, h.len, h.argLen hp] at h1
    refine ⟨fun hc => ?_, fun hc => ?_⟩
    · rw [if_pos hc] at h1; simp at h1
    · split_ifs at h1 <;> simp at h1
  · rintro ⟨h1, h2⟩
    exact C33_named_set_partial h p hp s h1 h2 hv hg hsol

/-- **C33**: without priors, `set_par` of a named set always raises. -/
theorem C33_no_prior (h : D.prior = none) (s : String) : ∃ ob', setPar S D dr g sq ob (.str s) none = (ob', .error .typeError) := by
  unfold setPar
  simp only [h]
  split_ifs <;> exact ⟨_, rfl⟩

theorem namedSet_resets {s : String} (hs : s ∈ setNames) (hb : s ≠ "best") (n : Nat) : (namedSet D dr ob s n).1.a.par = some D.parFix := by
  unfold namedSet
  split_ifs with h1 h2 h3 h4 h5 h6 h7 h8
  all_goals try rfl
  · cases ob.modeX <;> rfl
  · cases D.prior <;> rfl
  · cases D.prior <;> rfl
  · cases ob.initValue with
    | none => rfl
    | some init =>
      cases ob.ndim with
      | none => rfl
      | some _ =>
        cases D.prior with
        | none => rfl
        | some p => cases hf : fancyGet D.parFix p.arg <;> simp only [hf]
  · exfalso
    simp only [setNames, List.mem_cons, List.not_mem_nil, or_false] at hs
    simp only [isMode, List.mem_cons, List.not_mem_nil, or_false, decide_eq_true_eq] at h4
    tauto

/-- **C34**: `get_par` of a named set always leaves the calibration as current parameters, whatever they were. -/
theorem C34_resets (s : String) (hs : s ∈ setNames) (hn : s ∉ D.names) (hf : s ∉ D.pfNames) (full : Bool) (n : Nat) :
    (getPar S D dr g ob (.str s) none full n).1.a.par = some D.parFix ∨ ob.a.par = none := by
  cases hv : ob.a.par with
  | none => exact .inr rfl
  | some v =>
    left
    unfold getPar
    have hst : startPars S D g ob none = (ob, .ok v) := startPars_some hv
    simp only [hst, List.idxOf?_eq_none_iff.2 hn, List.idxOf?_eq_none_iff.2 hf]
    have hc : s ≠ "cov_mat" := by rintro rfl; revert hs; decide
    rw [if_neg hc]
    by_cases hb : s = "best"
    · rw [if_pos hb]
      have hbest : (bestSet D dr ob).1.a.par = some D.parFix := by
        unfold bestSet
        have h1 := namedSet_resets (D := D) (dr := dr) (ob := ob) (s := "mode") (by decide) (by decide) 1
        cases hm : namedSet D dr ob "mode" 1 with
        | mk o r =>
          rw [hm] at h1
          cases r with
          | ok c => exact h1
          | error e => exact namedSet_resets (by decide) (by decide) 1
      cases hm : bestSet D dr ob with
      | mk o r =>
        rw [hm] at hbest
        cases r <;> exact hbest
    · rw [if_neg hb]
      have h1 := namedSet_resets (D := D) (dr := dr) (ob := ob) hs hb n
      cases hm : namedSet D dr ob s n with
      | mk o r =>
        rw [hm] at h1
        cases r <;> exact h1

/-- **C34**, exact condition: `get_par` of a named set leaves the current parameters as they are if and only if they are the calibration. -/
theorem C34_iff (s : String) (hs : s ∈ setNames) (hn : s ∉ D.names) (hf : s ∉ D.pfNames) (full : Bool) (n : Nat) {v : List K} (hv : ob.a.par = some v) :
    (getPar S D dr g ob (.str s) none full n).1.a.par = ob.a.par ↔ v = D.parFix := by
  rcases C34_resets (S := S) (D := D) (dr := dr) (g := g) (ob := ob) s hs hn hf full n with h | h
  · rw [h, hv, Option.some.injEq]
    exact eq_comm
  · rw [hv] at h; cases h

/-- **C35**, the default: `box_check()` always compares the bounds of the `i`-th estimated parameter with the `i`-th declared parameter. -/
theorem C35_default_outcome (p : Prior K) (lb ub cur : List K) (h2 : lb.length = p.names.length) (h3 : ub.length = p.names.length)
    (hle : p.names.length ≤ cur.length) : ∃ msgs, boxCheck p.names lb ub cur none = .ok msgs ∧ BoxSpec p.names lb ub cur msgs :=
  boxLoop_spec p.names cur lb ub hle h2 h3

/-- **C35**, exact condition: the default reports what the estimated parameters `w` call for, whatever the bounds are, if and only if they are the first
declared ones by value. -/
theorem C35_iff (p : Prior K) (hn : p.names.Nodup) (cur w : List K) (hw : w.length = p.names.length) (hle : p.names.length ≤ cur.length) :
    (∀ lb ub : List K, lb.length = p.names.length → ub.length = p.names.length → ∃ msgs, boxCheck p.names lb ub cur none = .ok msgs ∧ BoxSpec p.names lb ub w msgs) ↔
      w = cur.take p.names.length := by
  constructor
  · intro h
    apply List.ext_getElem?
    intro i
    rw [List.getElem?_take]
    by_cases hi : i < p.names.length
    · rw [if_pos hi]
      obtain ⟨x, hx⟩ : ∃ x, cur[i]? = some x := ⟨cur[i]'(by omega), List.getElem?_eq_getElem (by omega)⟩
      obtain ⟨y, hy⟩ : ∃ y, w[i]? = some y := ⟨w[i]'(by omega), List.getElem?_eq_getElem (by omega)⟩
      have hni : p.names[i]? = some p.names[i] := List.getElem?_eq_getElem hi
      rw [hx, hy]
      by_contra hc
      have hxy : x ≠ y := fun e => hc (by rw [e])
      have low : ∀ b : K, (x < b ↔ y < b) ∧ (x < b → x = y) := by
        intro b
        obtain ⟨msgs, m1, m2, -⟩ := h (List.replicate p.names.length b) (List.replicate p.names.length b) (by simp) (by simp)
        obtain ⟨msgs', n1, n2, -⟩ := C35_default_outcome p (List.replicate p.names.length b) (List.replicate p.names.length b) cur (by simp) (by simp) hle
        rw [m1] at n1
        obtain rfl := Except.ok.inj n1
        have hb : (List.replicate p.names.length b)[i]? = some b := by rw [List.getElem?_replicate, if_pos hi]
        have key : ∀ c, (∃ j : Nat, p.names[j]? = some p.names[i] ∧ w[j]? = some c ∧ (List.replicate p.names.length b)[j]? = some b ∧ c < b) ↔ c = y ∧ y < b := by
          intro c
          constructor
          · rintro ⟨j, a1, a2, -, a3⟩
            obtain ⟨hj, e⟩ := List.getElem?_eq_some_iff.1 a1
            obtain rfl := (hn.getElem_inj_iff).1 e
            rw [hy] at a2
            obtain rfl := Option.some.inj a2
            exact ⟨rfl, a3⟩
          · rintro ⟨rfl, a⟩
            exact ⟨i, hni, hy, hb, a⟩
        have key' : ∀ c, (∃ j : Nat, p.names[j]? = some p.names[i] ∧ cur[j]? = some c ∧ (List.replicate p.names.length b)[j]? = some b ∧ c < b) ↔ c = x ∧ x < b := by
          intro c
          constructor
          · rintro ⟨j, a1, a2, -, a3⟩
            obtain ⟨hj, e⟩ := List.getElem?_eq_some_iff.1 a1
            obtain rfl := (hn.getElem_inj_iff).1 e
            rw [hx] at a2
            obtain rfl := Option.some.inj a2
            exact ⟨rfl, a3⟩
          · rintro ⟨rfl, a⟩
            exact ⟨i, hni, hx, hb, a⟩
        have e : ∀ c, (c = y ∧ y < b) ↔ (c = x ∧ x < b) := fun c => by
          rw [← key, ← key', ← m2, ← n2]
        exact ⟨⟨fun hh => ((e x).2 ⟨rfl, hh⟩).2, fun hh => ((e y).1 ⟨rfl, hh⟩).2⟩, fun hh => ((e x).2 ⟨rfl, hh⟩).1⟩
      rcases lt_or_gt_of_ne hxy with hlt | hlt
      · exact hxy ((low y).2 hlt)
      · exact absurd ((low x).1.2 hlt) (lt_irrefl x)
    · rw [if_neg hi, List.getElem?_eq_none (by omega)]
  · rintro rfl lb ub h2 h3
    obtain ⟨msgs, hm, hlow, hhigh⟩ := C35_default_outcome p lb ub cur h2 h3 hle
    refine ⟨msgs, hm, fun n x l => ?_, fun n x l => ?_⟩
    · rw [hlow]
      refine exists_congr fun i => ?_
      rw [List.getElem?_take]
      constructor
      · rintro ⟨a, b, c⟩
        exact ⟨a, by rw [if_pos (List.getElem?_eq_some_iff.1 a).1]; exact b, c⟩
      · rintro ⟨a, b, c⟩
        rw [if_pos (List.getElem?_eq_some_iff.1 a).1] at b
        exact ⟨a, b, c⟩
    · rw [hhigh]
      refine exists_congr fun i => ?_
      rw [List.getElem?_take]
      constructor
      · rintro ⟨a, b, c⟩
        exact ⟨a, by rw [if_pos (List.getElem?_eq_some_iff.1 a).1]; exact b, c⟩
      · rintro ⟨a, b, c⟩
        rw [if_pos (List.getElem?_eq_some_iff.1 a).1] at b
        exact ⟨a, b, c⟩

/-! ## C145: `simulate` -/

section
open Matrix Pydsge.Engine Pydsge.GenSys Pydsge.Tools Pydsge.Batch Pydsge.SimMany
variable {σ P z ε p o : Type} [Fintype z] [Fintype ε] [Fintype p] [Fintype o] [DecidableEq z] [DecidableEq ε] [DecidableEq p]

/-- **C145**, exact condition: `simulate` returns one result for each sequence of residuals if and only if there are at least as many parameter vectors and initial
states. -/
theorem C145_iff (O : Ops σ P z ε p o K) (a : Args ε K) {source : Option (SimSource (List P) (List (List (ε → K))) (List (p ⊕ z → K)))}
    {pars : Option (List P)} {resid : Option (List (List (ε → K)))} {init : Option (List (p ⊕ z → K))} {ps : List P} {es : List (List (ε → K))}
    {xs : List (p ⊕ z → K)} (hi : SimInputs source pars resid init ps es xs) {self : Nat} {h : Heap σ}
    {x : σ} (hx : h.cell self = some x) {sched : List Nat} (hs : sched.Perm (List.range (min ps.length (min es.length xs.length)))) {rs : List (SimRes z p K)}
    (hrs : (simulateMany O a source pars resid init sched self h).2 = .ok rs) : rs.length = es.length ↔ es.length ≤ ps.length ∧ es.length ≤ xs.length := by
  have := ((C144_results O a hi hx hs rs).1 hrs).1
  omega

end

end

/-! ## C13: `traj` and `k_map` -/

section
open Pydsge.Tools Pydsge.Engine Pydsge.GenSys
variable {z ε p o K : Type} [Fintype z] [Fintype ε] [Fintype p] [Fintype o] [DecidableEq z] [DecidableEq ε] [DecidableEq p] [Field K] [LinearOrder K]

/-- The solution after a history of calls. -/
def Spec.solutionAfter (m : Model z ε p o K) (cs : List (TCall z ε p o K)) : Model z ε p o K :=
  (cs.filterMap fun c => match c with
    | .setPar m' => some m'
    | _ => none).getLastD m

theorem tcall_mod (sched : Nat → List Nat) (ob : TObj z ε p o K) (c : TCall z ε p o K) : (ob.call sched c).1.mod = Spec.solutionAfter ob.mod [c] := by
  cases c with
  | setPar m => rfl
  | traj st l k =>
    unfold TObj.call
    cases h1 : trajLK ob.mod st l k with
    | error e => simp only [h1]; rfl
    | ok lk => cases h2 : ob.tmats sched <;> simp only [h1, h2] <;> rfl
  | kMap st l k =>
    unfold TObj.call
    cases h1 : kMapLK ob.mod st l k with
    | error e => simp only [h1]; rfl
    | ok lk => cases h2 : ob.tmats sched <;> simp only [h1, h2] <;> rfl

theorem trun_mod (sched : Nat → List Nat) (cs : List (TCall z ε p o K)) (ob : TObj z ε p o K) :
    (ob.run sched cs).1.mod = Spec.solutionAfter ob.mod cs := by
  induction cs generalizing ob with
  | nil => rfl
  | cons c cs ih =>
    simp only [TObj.run]
    rw [ih, tcall_mod]
    unfold Spec.solutionAfter
    cases c with
    | setPar m => simp only [List.filterMap_cons, List.filterMap_nil, List.getLastD_cons, List.getLastD_nil]
    | traj st l k => simp only [List.filterMap_cons, List.filterMap_nil, List.getLastD_nil]
    | kMap st l k => simp only [List.filterMap_cons, List.filterMap_nil, List.getLastD_nil]

theorem trun_cache (sched : Nat → List Nat) (cs : List (TCall z ε p o K)) {ob : TObj z ε p o K} {tt : TTab (z ⊕ ε) K} (h : ob.cache = some tt) :
    (ob.run sched cs).1.cache = some tt := by
  induction cs generalizing ob with
  | nil => exact h
  | cons c cs ih =>
    simp only [TObj.run]
    apply ih
    have ht : ob.tmats sched = .ok tt := by unfold TObj.tmats; simp only [h]
    cases c with
    | setPar m => exact h
    | traj st l k =>
      unfold TObj.call
      cases h1 : trajLK ob.mod st l k with
      | error e => simp only [h1]; exact h
      | ok lk => simp only [h1, ht]
    | kMap st l k =>
      unfold TObj.call
      cases h1 : kMapLK ob.mod st l k with
      | error e => simp only [h1]; exact h
      | ok lk => simp only [h1, ht]

theorem trun_append (sched : Nat → List Nat) (a b : List (TCall z ε p o K)) (ob : TObj z ε p o K) :
    (ob.run sched (a ++ b)).2 = (ob.run sched a).2 ++ ((ob.run sched a).1.run sched b).2 ∧ (ob.run sched a).2.length = a.length := by
  induction a generalizing ob with
  | nil => exact ⟨rfl, rfl⟩
  | cons c a ih =>
    obtain ⟨h1, h2⟩ := ih (ob.call sched c).1
    simp only [List.cons_append, TObj.run, List.cons_append, List.length_cons]
    exact ⟨by rw [h1], by rw [h2]⟩

/-- **C13**, all later answers: once tables `tt` have been computed, every later `traj` and `k_map` looks for the spell in the current solution and takes the values from
`tt`, after any calls in between. -/
theorem C13_outcome (sched : Nat → List Nat) (ob : TObj z ε p o K) (tt : TTab (z ⊕ ε) K) (h : ob.cache = some tt) (a b : List (TCall z ε p o K)) :
    (∀ st l k, (ob.run sched (a ++ .traj st l k :: b)).2[a.length]? = some (.traj (traj (Spec.solutionAfter ob.mod a) tt st l k))) ∧
    (∀ st l k, (ob.run sched (a ++ .kMap st l k :: b)).2[a.length]? = some (.kMap (kMap (Spec.solutionAfter ob.mod a) tt st l k))) := by
  have hc := trun_cache sched a h
  have hm := trun_mod sched a ob
  have ht : (ob.run sched a).1.tmats sched = .ok tt := by unfold TObj.tmats; simp only [hc]
  constructor
  · intro st l k
    obtain ⟨h1, h2⟩ := trun_append sched a (.traj st l k :: b) ob
    rw [h1, List.getElem?_append_right (by omega), h2, Nat.sub_self]
    simp only [TObj.run, List.getElem?_cons_zero, Option.some.injEq]
    unfold TObj.call
    rw [← hm]
    cases h3 : trajLK (ob.run sched a).1.mod st l k with
    | error e => simp only [h3, traj]
    | ok lk => simp only [h3, ht]
  · intro st l k
    obtain ⟨h1, h2⟩ := trun_append sched a (.kMap st l k :: b) ob
    rw [h1, List.getElem?_append_right (by omega), h2, Nat.sub_self]
    simp only [TObj.run, List.getElem?_cons_zero, Option.some.injEq]
    unfold TObj.call
    rw [← hm]
    cases h3 : kMapLK (ob.run sched a).1.mod st l k with
    | error e => simp only [h3, kMap]
    | ok lk => simp only [h3, ht]

end

end Pydsge
