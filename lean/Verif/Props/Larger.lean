import Verif.Props.AveragesEx

/-!
# C189: larger shocks, in transitions, simulations and impulse responses
-/

set_option autoImplicit false
set_option linter.unusedSectionVars false
set_option linter.unusedSimpArgs false

namespace Pydsge

open Matrix Pydsge.Engine Pydsge.Spec Pydsge.Tools Pydsge.GenSys

variable {E ν ε o K : Type} [Fintype E] [Fintype ν] [Fintype ε] [Fintype o]
  [DecidableEq E] [DecidableEq ν] [DecidableEq ε] [Field K] [LinearOrder K] [IsStrictOrderedRing K]
variable {H z p : Type} [DecidableEq H] [Fintype H] [Fintype z] [Fintype p] [DecidableEq z] [DecidableEq p]
section Yaml
variable {D : Declared E ν ε K} {Z0 : Matrix o ν K} {Z1 : o → K} {tol : K} [DecidablePred (inall tol (yaml D Z0 Z1))]
  {lay : Layout tol (yaml D Z0 Z1) H z p}
  {orc : Oracle (Rows E H ε) (z ⊕ ε) p K} {lMax kMax : Nat} {sched : Nat → List Nat} {mod : Model z ε p o K}

/-- the order of states does not change when both are divided by a positive number -/
theorem orderedBy_smul {lo up : ν → Prop} {c : K} (hc : 0 < c) {st st' : p ⊕ z → K} :
    Spec.OrderedBy lay lo up st' (c • st) ↔ Spec.OrderedBy lay lo up (c⁻¹ • st') st := by
  have key : ∀ a b : K, a ≤ c * b ↔ c⁻¹ * a ≤ b := fun a b => by
    rw [inv_mul_le_iff₀ hc]
  have key' : ∀ a b : K, c * b ≤ a ↔ b ≤ c⁻¹ * a := fun a b => by
    rw [le_inv_mul_iff₀ hc]
  unfold Spec.OrderedBy
  simp only [val_smul, key, key']

section
variable (h : Succeeded lay orc lMax kMax sched mod) (hk1 : 1 ≤ kMax) (hlag : Spec.LagsNotExpected D) (hself : D.rb D.cvar ≠ 1)
  (hP : Spec.NoReversalOf lay mod) (hZ : Spec.LowersElsewhere lay mod)
  {lo up : ν → Prop} (hlo : ∀ v, lo v → Spec.Lowers lay mod v 0) (hup : ∀ v, up v → Spec.Raises lay mod v 0)
  (h0 : Spec.LinearOrders lay mod lo up 0 0) (hF : Spec.FlagMeansEquilibrium lay mod) (hb : D.xbar < 0) {c : K} (hc : 1 ≤ c)
include h hk1 hlag hself hP hZ hlo hup h0 hF hb hc

/-- **C189.** One transition: `c ≥ 1` times the shocks, from a state that is at most as good as `c` times the other one, lead to a state that is at most as
good as `c` times the other one. -/
theorem C189_larger_transition {st st' : p ⊕ z → K} {e e' : ε → K} (ho : Spec.OrderedBy lay lo up st' (c • st)) (he : e' = c • e)
    {r r' : Step z p K} (hr : tFunc mod st e .none false = .ok r) (hf : r.flag = 0) (hr' : tFunc mod st' e' .none false = .ok r')
    (hf' : r'.flag = 0) : Spec.OrderedBy lay lo up r'.state (c • r.state) := by
  have c0 : 0 < c := lt_of_lt_of_le one_pos hc
  obtain ⟨r0, g1, g2, -, -, g5⟩ := C10_steady_state_fixed_point h hb false
  rw [orderedBy_smul c0] at ho ⊢
  have key := C189_transition h hk1 hlag hself hP hZ hlo hup h0 hF (S := Finset.univ) (a := fun i : Fin 2 => if i = 0 then c⁻¹ else 1 - c⁻¹)
    (fun i _ => by
      fin_cases i
      · simpa using c0.le
      · simpa using inv_le_one_of_one_le₀ hc)
    (by simp [Fin.sum_univ_two])
    (st := fun i => if i = 0 then st' else 0) (e := fun i => if i = 0 then e' else 0) (st0 := st) (e0 := e)
    (by simpa [Fin.sum_univ_two] using ho)
    (by
      have : (∑ i : Fin 2, (if i = 0 then c⁻¹ else 1 - c⁻¹) • (if i = 0 then e' else 0)) = e := by
        rw [he]
        simp [Fin.sum_univ_two, smul_smul, inv_mul_cancel₀ c0.ne']
      rw [this]
      exact linearOrders_same h h0 e)
    (r := fun i => if i = 0 then r' else r0) (r0 := r)
    (fun i _ => by
      fin_cases i
      · simpa using hr'
      · simpa using g1)
    (fun i _ => by
      fin_cases i
      · simpa using hf'
      · simpa using g5)
    hr hf
  simpa [Fin.sum_univ_two, g2] using key

/-- **C189.** Simulations with `c ≥ 1` times the shocks are in every period at most as good as `c` times the simulation with the shocks: the constraint
makes the effects of large shocks more than proportionally worse. -/
theorem C189_larger_simulate : ∀ (es : List (ε → K)) {st st' : p ⊕ z → K} {res res' : SimRes z p K},
    Spec.OrderedBy lay lo up st' (c • st) → simLoop mod false st es = .ok res → res.flag = 0 →
    simLoop mod false st' (es.map fun e => c • e) = .ok res' → res'.flag = 0 →
    List.Forall₂ (fun x' x => Spec.OrderedBy lay lo up x' (c • x)) res'.X res.X := by
  intro es
  induction es with
  | nil =>
    intro st st' res res' hst h1 _ h2 _
    cases h1
    cases h2
    exact .cons hst .nil
  | cons e es ih =>
    intro st st' res res' hst h1 hf h2 hf'
    rw [List.map_cons] at h2
    unfold simLoop at h1 h2
    generalize hr : tFunc mod st e .none false = x at h1
    rcases x with err | r
    · cases h1
    generalize hr' : tFunc mod st' (c • e) .none false = x' at h2
    rcases x' with err | r'
    · cases h2
    simp only at h1 h2
    generalize hx : simLoop mod false r.state es = y at h1
    rcases y with err | y
    · cases h1
    generalize hx' : simLoop mod false r'.state (es.map fun e => c • e) = y' at h2
    rcases y' with err | y'
    · cases h2
    cases h1
    cases h2
    simp only [Nat.or_eq_zero_iff] at hf hf'
    exact .cons hst (ih (C189_larger_transition h hk1 hlag hself hP hZ hlo hup h0 hF hb hc hst rfl hr hf.1 hr' hf'.1) hx hf.2 hx' hf'.2)

omit h hk1 hlag hself hP hZ hlo hup h0 hF hb hc in
/-- the shocks of a period, when all sizes are multiplied -/
theorem shkVec_scaled (c : K) (sl : List (ShockSpec ε K)) (t : Nat) : shkVec (sl.map fun s => (s.1, c * s.2.1, s.2.2)) t = c • shkVec sl t := by
  unfold shkVec
  have : ∀ (sl : List (ShockSpec ε K)) (v : ε → K),
      (sl.map fun s => (s.1, c * s.2.1, s.2.2)).foldl (fun v s => if s.2.2 = (t : Int) then Function.update v s.1 s.2.1 else v) (c • v) =
        c • sl.foldl (fun v s => if s.2.2 = (t : Int) then Function.update v s.1 s.2.1 else v) v := by
    intro sl
    induction sl with
    | nil => intro v; rfl
    | cons s sl ih =>
      intro v
      rw [List.map_cons, List.foldl_cons, List.foldl_cons, ← ih]
      congr 1
      by_cases hs : s.2.2 = (t : Int)
      · simp only [if_pos hs]
        funext i
        by_cases hi : i = s.1
        · subst hi; simp
        · simp [Function.update_of_ne hi]
      · simp only [if_neg hs]
  have h1 := this sl 0
  rwa [smul_zero] at h1

/-- **C189** for impulse responses: with all sizes in the list of shocks multiplied by `c ≥ 1`, the responses are at most as good as `c` times the responses. -/
theorem C189_larger_irfs {sl : List (ShockSpec ε K)} {T : Nat} {xs ys : List (IrfState z p K)}
    (hxs : irfs mod ⟨sl, .none, false, false⟩ 0 T = .ok xs)
    (hys : irfs mod ⟨sl.map fun s => (s.1, c * s.2.1, s.2.2), .none, false, false⟩ 0 T = .ok ys) :
    ∀ {t : Nat} {s s' : IrfState z p K}, xs[t]? = some s → ys[t]? = some s' → s.flag = 0 → s'.flag = 0 →
      Spec.OrderedBy lay lo up s'.state (c • s.state) := by
  obtain ⟨a1, a2⟩ := irfRun_steps hxs
  obtain ⟨b1, b2⟩ := irfRun_steps hys
  have step : ∀ (t : Nat) (s0 s s0' s' : IrfState z p K), Spec.OrderedBy lay lo up s0'.state (c • s0.state) ∨ s0.flag ≠ 0 ∨ s0'.flag ≠ 0 →
      irfStep mod ⟨sl, .none, false, false⟩ s0 t = .ok s →
      irfStep mod ⟨sl.map fun s => (s.1, c * s.2.1, s.2.2), .none, false, false⟩ s0' t = .ok s' → s.flag = 0 → s'.flag = 0 →
      Spec.OrderedBy lay lo up s'.state (c • s.state) := by
    intro t s0 s s0' s' g0 h1 h2 h3 h3'
    rw [irfStep_free (.inl rfl)] at h1 h2
    generalize hr : tFunc mod s0.state (shkVec sl t) .none false = x at h1
    rcases x with err | r
    · cases h1
    generalize hr' : tFunc mod s0'.state (shkVec (sl.map fun s => (s.1, c * s.2.1, s.2.2)) t) .none false = x' at h2
    rcases x' with err | r'
    · cases h2
    cases h1
    cases h2
    simp only [Nat.or_eq_zero_iff] at h3 h3'
    rcases g0 with g0 | g0 | g0
    · exact C189_larger_transition h hk1 hlag hself hP hZ hlo hup h0 hF hb hc g0 (shkVec_scaled c sl t) hr h3.2 hr' h3'.2
    · exact absurd h3.1 g0
    · exact absurd h3'.1 g0
  have hst : Spec.OrderedBy lay lo up (0 : p ⊕ z → K) (c • (0 : p ⊕ z → K)) := by
    rw [smul_zero]
    exact ⟨fun _ _ => le_rfl, fun _ _ => le_rfl⟩
  intro t
  induction t with
  | zero =>
    intro s s' hs hs' hf hf'
    exact step 0 _ s _ s' (.inl hst) (a2 0 _ s rfl hs) (b2 0 _ s' rfl hs') hf hf'
  | succ t ih =>
    intro s s' hs hs' hf hf'
    have ht : t < xs.length := by
      obtain ⟨h3, _⟩ := List.getElem?_eq_some_iff.1 hs
      omega
    have ht' : t < ys.length := by omega
    have hp : xs[t]? = some xs[t] := List.getElem?_eq_getElem ht
    have hp' : ys[t]? = some ys[t] := List.getElem?_eq_getElem ht'
    have g1 := a2 (t + 1) xs[t] s (by rw [List.getElem?_cons_succ]; exact hp) hs
    have g2 := b2 (t + 1) ys[t] s' (by rw [List.getElem?_cons_succ]; exact hp') hs'
    rw [Nat.zero_add] at g1 g2
    refine step (t + 1) _ s _ s' ?_ g1 g2 hf hf'
    by_cases h0 : xs[t].flag = 0
    · by_cases h0' : ys[t].flag = 0
      · exact .inl (ih hp hp' h0 h0')
      · exact .inr (.inr h0')
    · exact .inr (.inl h0)

end
end Yaml

/-- **C189**: the comparison with twice the shock. After the shock `-5/2` the constraint does not bind and `y` is `-5/4`; after the shock `-5` it binds for two periods
and `y` is `-11/3`, below `2 * (-5/4)`. All hypotheses are those of `C189_hypotheses_met`, and the bound is negative. -/
theorem C189_larger_hypotheses_met (lMax kMax : Nat) (hk : 2 ≤ kMax) (hL : lMax + 1 ≤ 999) : ∃ mod,
    Succeeded Ex17.lay Ex17.orc lMax kMax (serial kMax) mod ∧ Spec.LagsNotExpected Ex17.decl ∧ Ex17.decl.rb Ex17.decl.cvar ≠ 1 ∧
    Spec.NoReversalOf Ex17.lay mod ∧ Spec.LowersElsewhere Ex17.lay mod ∧ (∀ v, v = 0 → Spec.Lowers Ex17.lay mod v 0) ∧
    Spec.LinearOrders Ex17.lay mod (fun v => v = 0) (fun _ => False) 0 0 ∧ Spec.FlagMeansEquilibrium Ex17.lay mod ∧ Ex17.decl.xbar < 0 ∧
    ∃ res res', simLoop mod false 0 [fun _ => -5/2] = .ok res ∧ res.flag = 0 ∧ res.LK = [(0, 0)] ∧
      simLoop mod false 0 ([fun _ => -5/2].map fun e => (2 : Rat) • e) = .ok res' ∧ res'.flag = 0 ∧ res'.LK = [(0, 2)] ∧
      res.X.map (fun s => s (.inr 0)) = [0, -5/4] ∧ res'.X.map (fun s => s (.inr 0)) = [0, -11/3] := by
  obtain ⟨mod, h⟩ := Ex17.succeeds (b := -1) lMax kMax (fun _ _ => List.Perm.refl _)
  obtain ⟨r, a1, a2, a3, a4, a5⟩ := Ex17.run_slack h (by omega) hL (st := 0) (eps := fun _ => -5/2) (by norm_num)
  obtain ⟨r', b1, b2, b3, b4, b5⟩ := Ex17.run h (k := 2) (by omega) hk hL (st := 0) (eps := fun _ => -5) (by norm_num) (by norm_num)
  have he : ((2 : Rat) • (fun _ => -5/2 : Fin 1 → Rat)) = fun _ => -5 := by
    funext i
    simp
    norm_num
  obtain ⟨rs, rl, rk, rf⟩ := r
  obtain ⟨rs', rl', rk', rf'⟩ := r'
  simp only at a2 a3 a4 a5 b2 b3 b4 b5
  subst a2 a3 a4 b2 b3 b4
  refine ⟨mod, h, Ex17.lagsNotExpected, Ex17.self_ne, Ex17.noReversalOf, Ex17.lowersElsewhere, ?_, Ex17.linearOrders h le_rfl,
    Ex17.flagMeansEquilibrium h (by omega), by norm_num [Ex17.decl, Ex17.declB], _, _, by simp only [simLoop, a1]; rfl, rfl, rfl,
    by rw [List.map_cons, List.map_nil, he]; simp only [simLoop, b1]; rfl, rfl, rfl, ?_, ?_⟩
  · rintro v rfl
    exact Ex17.lowers_y 0
  · simp only [List.map_cons, List.map_nil, a5]
    norm_num
  · simp only [List.map_cons, List.map_nil, b5]
    norm_num

end Pydsge
