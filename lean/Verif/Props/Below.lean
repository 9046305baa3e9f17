import Verif.Props.Direction2

/-!
# C187: simulated paths below the linear ones
-/

set_option autoImplicit false
set_option linter.unusedSectionVars false
set_option linter.unusedSimpArgs false

namespace Pydsge

open Matrix Pydsge.Engine Pydsge.Spec Pydsge.Tools Pydsge.GenSys

variable {E ν ε o K : Type} [Fintype E] [Fintype ν] [Fintype ε] [Fintype o]
  [DecidableEq E] [DecidableEq ν] [DecidableEq ε] [Field K] [LinearOrder K] [IsStrictOrderedRing K]
variable {H z p : Type} [DecidableEq H] [Fintype H] [Fintype z] [Fintype p] [DecidableEq z] [DecidableEq p]
section Yaml
variable {D : Declared E ν ε K} {Z0 : Matrix o ν K} {Z1 : o → K} {tol : K} [DecidablePred (inall tol (yaml D Z0 Z1))]
  {lay : Layout tol (yaml D Z0 Z1) H z p}
  {orc : Oracle (Rows E H ε) (z ⊕ ε) p K} {lMax kMax : Nat} {sched : Nat → List Nat} {mod : Model z ε p o K}

/-- The variables in `lo` are not higher in the state `st` than in `st'`, those in `up` not lower. -/
def Spec.OrderedBy (lay : Layout tol (yaml D Z0 Z1) H z p) (lo up : ν → Prop) (st st' : p ⊕ z → K) : Prop :=
  (∀ v, lo v → lay.val st (.inl v) ≤ lay.val st' (.inl v)) ∧ ∀ v, up v → lay.val st' (.inl v) ≤ lay.val st (.inl v)

/-- The linear model keeps this order from one period to the next. -/
def Spec.LinearKeeps (lay : Layout tol (yaml D Z0 Z1) H z p) (mod : Model z ε p o K) (lo up : ν → Prop) : Prop :=
  ∀ st st' e r r', Spec.OrderedBy lay lo up st st' → tFunc mod st e .none true = .ok r → tFunc mod st' e .none true = .ok r' →
    Spec.OrderedBy lay lo up r.state r'.state

/-- Spells of more than two periods that are reported without an error genuinely bind. -/
def Spec.LongGenuine (lay : Layout tol (yaml D Z0 Z1) H z p) (mod : Model z ε p o K) : Prop :=
  ∀ st e r, tFunc mod st e .none false = .ok r → r.flag = 0 → 3 ≤ r.k →
    ∃ X, ExpectedPath mod r.l r.k st e X ∧ Spec.Genuine lay st e X r.l r.k

/-- With tables for at most two binding periods there are none. -/
theorem longGenuine_of_two (h : Succeeded lay orc lMax kMax sched mod) (hk1 : 1 ≤ kMax) (hk2 : kMax ≤ 2) : Spec.LongGenuine lay mod := by
  intro st e r hr _ h3
  have := (found_inside h hk1 hr).2
  omega

section
variable (h : Succeeded lay orc lMax kMax sched mod) (hk1 : 1 ≤ kMax) (hlag : Spec.LagsNotExpected D) (hself : D.rb D.cvar ≠ 1)
  {lo up : ν → Prop} (hlo : ∀ v, lo v → Spec.Lowers lay mod v 0) (hup : ∀ v, up v → Spec.Raises lay mod v 0)
  (hkeep : Spec.LinearKeeps lay mod lo up) (hG : Spec.LongGenuine lay mod)
include h hk1 hlag hself hlo hup hkeep hG

/-- One period. -/
theorem ordered_step {st st' : p ⊕ z → K} (hst : Spec.OrderedBy lay lo up st st') {e : ε → K} {r r' : Step z p K}
    (hr : tFunc mod st e .none false = .ok r) (hflag : r.flag = 0) (hr' : tFunc mod st' e .none true = .ok r') :
    Spec.OrderedBy lay lo up r.state r'.state := by
  have hl := tFunc_linear_eq h st e
  have h1 := hkeep _ _ _ _ _ hst hl hr'
  have h2 : ∀ v, _ := fun v => C186_transition h hk1 hlag hself hr (by
    rcases Nat.lt_or_ge r.k 3 with hk | hk
    · exact .inl ⟨hflag, by omega⟩
    · exact .inr (hG st e r hr hflag hk)) hl (v := v)
  exact ⟨fun v hv => ((h2 v).1 (hlo v hv)).trans (h1.1 v hv), fun v hv => (h1.2 v hv).trans ((h2 v).2 (hup v hv))⟩

/-- **C187.** If no error is reported, a simulation with the constraint stays below the linear simulation with the same shocks in all variables of
`lo` and above it in all variables of `up`, in all periods. -/
theorem C187_simulate {es : List (ε → K)} : ∀ {st st' : p ⊕ z → K} {res res' : SimRes z p K}, Spec.OrderedBy lay lo up st st' →
    simLoop mod false st es = .ok res → res.flag = 0 → simLoop mod true st' es = .ok res' →
    List.Forall₂ (Spec.OrderedBy lay lo up) res.X res'.X := by
  induction es with
  | nil =>
    intro st st' res res' hst h1 _ h2
    cases h1
    cases h2
    exact .cons hst .nil
  | cons e es ih =>
    intro st st' res res' hst h1 hf h2
    unfold simLoop at h1 h2
    rw [tFunc_linear_eq h] at h2
    simp only at h2
    generalize hr : tFunc mod st e .none false = x at h1
    rcases x with err | r
    · cases h1
    simp only at h1
    generalize hx : simLoop mod false r.state es = y at h1
    rcases y with err | y
    · cases h1
    generalize hx' : simLoop mod true _ es = y' at h2
    rcases y' with err | y'
    · cases h2
    cases h1
    cases h2
    simp only [Nat.or_eq_zero_iff] at hf
    exact .cons hst (ih (ordered_step h hk1 hlag hself hlo hup hkeep hG hst hr hf.1 (tFunc_linear_eq h st' e)) hx hf.2 hx')

/-- **C187** for impulse responses, to any list of shocks in any periods. -/
theorem C187_irfs {st st' : p ⊕ z → K} (hst : Spec.OrderedBy lay lo up st st') {sl : List (ShockSpec ε K)} {T : Nat} {xs ys : List (IrfState z p K)}
    (hxs : irfs mod ⟨sl, .none, false, false⟩ st T = .ok xs) (hys : irfs mod ⟨sl, .none, false, true⟩ st' T = .ok ys) :
    ∀ {t : Nat} {s s' : IrfState z p K}, xs[t]? = some s → ys[t]? = some s' → s.flag = 0 → Spec.OrderedBy lay lo up s.state s'.state := by
  obtain ⟨a1, a2⟩ := irfRun_steps hxs
  obtain ⟨b1, b2⟩ := irfRun_steps hys
  have step : ∀ (t : Nat) (s0 s s0' s' : IrfState z p K), Spec.OrderedBy lay lo up s0.state s0'.state ∨ s0.flag ≠ 0 →
      irfStep mod ⟨sl, .none, false, false⟩ s0 t = .ok s → irfStep mod ⟨sl, .none, false, true⟩ s0' t = .ok s' → s.flag = 0 →
      Spec.OrderedBy lay lo up s.state s'.state := by
    intro t s0 s s0' s' h0 h1 h2 h3
    rw [irfStep_free (.inl rfl)] at h1 h2
    rw [tFunc_linear_eq h] at h2
    generalize hr : tFunc mod s0.state (shkVec sl t) .none false = x at h1
    rcases x with err | r
    · cases h1
    cases h1
    cases h2
    simp only [Nat.or_eq_zero_iff] at h3
    rcases h0 with h0 | h0
    · exact ordered_step h hk1 hlag hself hlo hup hkeep hG h0 hr h3.2 (tFunc_linear_eq h _ _)
    · exact absurd h3.1 h0
  intro t
  induction t with
  | zero =>
    intro s s' hs hs' hf
    exact step 0 _ s _ s' (.inl hst) (a2 0 _ s rfl hs) (b2 0 _ s' rfl hs') hf
  | succ t ih =>
    intro s s' hs hs' hf
    have ht : t < xs.length := by
      obtain ⟨h3, _⟩ := List.getElem?_eq_some_iff.1 hs
      omega
    have ht' : t < ys.length := by omega
    have hp : xs[t]? = some xs[t] := List.getElem?_eq_getElem ht
    have hp' : ys[t]? = some ys[t] := List.getElem?_eq_getElem ht'
    have g1 := a2 (t + 1) xs[t] s (by rw [List.getElem?_cons_succ]; exact hp) hs
    have g2 := b2 (t + 1) ys[t] s' (by rw [List.getElem?_cons_succ]; exact hp') hs'
    rw [Nat.zero_add] at g1 g2
    refine step (t + 1) _ s _ s' ?_ g1 g2 hf
    by_cases h0 : xs[t].flag = 0
    · exact .inl (ih hp hp' h0)
    · exact .inr h0

/-- **C187 (asymmetry).** From the steady state, the responses to a list of shocks and to the same shocks with the opposite sign do not cancel: on
average the variables of `lo` are not above, and those of `up` not below the steady state. -/
theorem C187_asymmetry {sl : List (ShockSpec ε K)} {T : Nat} {xs ys : List (IrfState z p K)}
    (hxs : irfs mod ⟨sl, .none, false, false⟩ 0 T = .ok xs)
    (hys : irfs mod ⟨sl.map (fun s => (s.1, -s.2.1, s.2.2)), .none, false, false⟩ 0 T = .ok ys)
    {t : Nat} {s s' : IrfState z p K} (hs : xs[t]? = some s) (hs' : ys[t]? = some s') (hf : s.flag = 0) (hf' : s'.flag = 0) :
    (∀ v, lo v → lay.val s.state (.inl v) + lay.val s'.state (.inl v) ≤ 0) ∧
      ∀ v, up v → 0 ≤ lay.val s.state (.inl v) + lay.val s'.state (.inl v) := by
  have hneg : ∀ u, shkVec (sl.map (fun s => (s.1, -s.2.1, s.2.2))) u = (-1 : K) • shkVec sl u + (0 : K) • shkVec sl u := by
    intro u
    have := C09_shocks_scale (-1) sl u
    simp only [neg_one_mul] at this
    rw [this, zero_smul, add_zero]
  obtain ⟨A, B, C, a1, -, a3, a4, hB, a6⟩ := C09_superposition h (sk := .none) (.inl rfl) false false false (-1) 0 sl sl
    (sl.map (fun s => (s.1, -s.2.1, s.2.2))) T (fun u _ => hneg u) 0 0
  rw [smul_zero, smul_zero, add_zero] at a3
  have ho : Spec.OrderedBy lay lo up 0 0 := ⟨fun _ _ => le_rfl, fun _ _ => le_rfl⟩
  have hlen : t < T := by
    have := (irfRun_steps hxs).1
    obtain ⟨h3, _⟩ := List.getElem?_eq_some_iff.1 hs
    omega
  have hC : C.length = T := (irfRun_steps a3).1
  have eA : A[t]? = some A[t] := List.getElem?_eq_getElem _
  have eC : C[t]? = some C[t] := List.getElem?_eq_getElem _
  have h1 := C187_irfs h hk1 hlag hself hlo hup hkeep hG ho hxs a1 hs eA hf
  have h2 := C187_irfs h hk1 hlag hself hlo hup hkeep hG ho hys a3 hs' eC hf'
  have e : C[t].state = -A[t].state := by
    have := congrArg (fun l => l[t]?) a6
    simp only [List.getElem?_map, List.getElem?_zipWith, eA, eC, Option.map_some, List.getElem?_eq_getElem (show t < B.length by omega),
      Option.some.injEq] at this
    rw [this]
    simp
  have en : ∀ v, lay.val C[t].state (.inl v) = -lay.val A[t].state (.inl v) := by
    intro v
    have := val_sub lay 0 A[t].state (.inl v)
    rw [zero_sub, ← e] at this
    rw [this]
    have e0 : lay.val (0 : p ⊕ z → K) (.inl v) = 0 := by
      unfold Layout.val
      simp
    rw [e0, zero_sub]
  refine ⟨fun v hv => ?_, fun v hv => ?_⟩
  · have g1 := h1.1 v hv
    have g2 := h2.1 v hv
    rw [en] at g2
    linarith
  · have g1 := h1.2 v hv
    have g2 := h2.2 v hv
    rw [en] at g2
    linarith

end
end Yaml

namespace Ex16

variable {lMax kMax : Nat} {sched : Nat → List Nat} {mod : Model Bool Bool (Fin 1) (Fin 1) Rat}

theorem val_y (st : Fin 1 ⊕ Bool → Rat) : lay.val st (.inl 0) = st (.inr false) := lay.val_z st false
theorem val_w (st : Fin 1 ⊕ Bool → Rat) : lay.val st (.inl 1) = st (.inr true) := lay.val_z st true
theorem val_r (st : Fin 1 ⊕ Bool → Rat) : lay.val st (.inl 2) = st (.inl 0) := lay.val_p st 0

/-- the linear model keeps states with the same `y` and a lower `w` so -/
theorem linearKeeps (h : Succeeded lay orc lMax kMax sched mod) : Spec.LinearKeeps lay mod (fun v => v = 0 ∨ v = 1) (fun v => v = 0 ∨ v = 2) := by
  obtain ⟨c, hm⟩ := genSys_ok h.perm h.gen
  have hkl := hm.kl
  simp only [orc, Except.ok.injEq, Prod.mk.injEq] at hkl
  intro st st' e r r' ho h1 h2
  rw [tFunc_linear_eq h, ← hkl.1, ← hkl.2] at h1 h2
  cases h1
  cases h2
  have a1 := ho.1 0 (.inl rfl)
  have a2 := ho.2 0 (.inl rfl)
  have a3 := ho.1 1 (.inr rfl)
  rw [val_y, val_y] at a1 a2
  rw [val_w, val_w] at a3
  refine ⟨fun v hv => ?_, fun v hv => ?_⟩
  · rcases hv with rfl | rfl
    · rw [val_y, val_y]
      simp [mulVec, dotProduct, Fintype.sum_sum_type, lam, omg, q0Of]
      linarith
    · rw [val_w, val_w]
      simp [mulVec, dotProduct, Fintype.sum_sum_type, lam, omg, q0Of]
      linarith
  · rcases hv with rfl | rfl
    · rw [val_y, val_y]
      simp [mulVec, dotProduct, Fintype.sum_sum_type, lam, omg, q0Of]
      linarith
    · rw [val_r, val_r]
      simp [mulVec, dotProduct, Fintype.sum_sum_type, lam, omg, q0Of]
      linarith

/-- all reported spells bind genuinely -/
theorem longGenuine (h : Succeeded lay orc lMax kMax sched mod) (hk1 : 1 ≤ kMax) : Spec.LongGenuine lay mod := by
  intro st e r hr hf h3
  obtain ⟨hl, hk⟩ := found_inside h hk1 hr
  obtain ⟨c, hm⟩ := genSys_ok h.perm h.gen
  have hz := h.states
  have hx : decl.xbar = -1 := rfl
  have hnl := noLagFwd_of_not_expected (Z0 := fun (_ : Fin 1) (v : Fin 3) => if v = 0 then (1 : Rat) else 0) (Z1 := fun _ => 0) lagsNotExpected
  have hX := (expectedPath_iff hm h.orc h.noTiny h.square h.states hnl hl hk st e (xPath c r.l r.k (q0Of st e))).2 fun _ => rfl
  refine ⟨_, hX, fun s hs => ?_⟩
  rcases passes_of_flag h hk1 lagsNotExpected self_ne hr hf hX with h0 | ⟨-, h2⟩
  · omega
  have h2 := h2 (by omega)
  rw [rule_eq, path_y h hl hk hX, hx] at h2 ⊢
  unfold BindsAt at hs
  have hle := pow_half_le (show s ≤ r.l + r.k - 1 by omega)
  have hp : (0 : Rat) < (1/2) ^ (r.l + r.k - 1) := pow_pos (by norm_num) _
  have hp' : (0 : Rat) < (1/2) ^ s := pow_pos (by norm_num) _
  generalize (1/2 * st (.inr false) + e false) = a at *
  have ha : a < 0 := by
    by_contra hn
    push Not at hn
    have := mul_nonneg hn hp.le
    linarith
  nlinarith

end Ex16

/-- **C187**: the hypotheses are met, for simulations and impulse responses of any length. -/
theorem C187_hypotheses_met (lMax kMax : Nat) (hk : 2 ≤ kMax) (hL : lMax + 1 ≤ 999) : ∃ mod, Succeeded Ex16.lay Ex16.orc lMax kMax (serial kMax) mod ∧
    (∀ v, v = 0 ∨ v = 1 → Spec.Lowers Ex16.lay mod v 0) ∧ (∀ v, v = 0 ∨ v = 2 → Spec.Raises Ex16.lay mod v 0) ∧
    Spec.LinearKeeps Ex16.lay mod (fun v => v = 0 ∨ v = 1) (fun v => v = 0 ∨ v = 2) ∧ Spec.LongGenuine Ex16.lay mod ∧
    ∃ res, simLoop mod false 0 [Ex16.shock3] = .ok res ∧ res.flag = 0 ∧ res.LK = [(0, 2)] := by
  obtain ⟨mod, h⟩ := Ex16.succeeds lMax kMax (Ex16.serial_perm lMax kMax)
  obtain ⟨c, hm⟩ := genSys_ok h.perm h.gen
  have hz := h.states
  have hf := noLagFwd_of_not_expected (Z0 := fun (_ : Fin 1) (v : Fin 3) => if v = 0 then (1 : Rat) else 0)
    (Z1 := fun _ => 0) Ex16.lagsNotExpected
  have hX := (expectedPath_iff hm h.orc h.noTiny h.square h.states hf (Nat.zero_le _) hk 0 Ex16.shock3
    (xPath c 0 2 (q0Of 0 Ex16.shock3))).2 fun _ => rfl
  have hr := Ex16.run_some h (by omega) hk hL (st := 0) (eps := Ex16.shock3) (a := -3) (by simp [Ex16.shock3])
    (by norm_num) (by norm_num) (by norm_num) hX
  refine ⟨mod, h, ?_, ?_, Ex16.linearKeeps h, Ex16.longGenuine h (by omega), _, by simp only [simLoop, hr]; rfl, rfl, rfl⟩
  · rintro v (rfl | rfl)
    · exact (Ex16.keeps_y 0).1
    · exact Ex16.lowers_w 0
  · rintro v (rfl | rfl)
    · exact (Ex16.keeps_y 0).2
    · exact Ex16.raises_r 0

end Pydsge
