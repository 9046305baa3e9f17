import Verif.Props.Averages
import Verif.Props.Relax

/-!
# C146: with a lower bound the constraint adds less in every period
-/

set_option autoImplicit false
set_option linter.unusedSectionVars false
set_option linter.unusedSimpArgs false

namespace Pydsge

open Matrix Pydsge.Engine Pydsge.Spec Pydsge.Tools Pydsge.GenSys

variable {E ν ε o K : Type} [Fintype E] [Fintype ν] [Fintype ε] [Fintype o]
  [DecidableEq E] [DecidableEq ν] [DecidableEq ε] [Field K] [LinearOrder K] [IsStrictOrderedRing K]
variable {H z p : Type} [DecidableEq H] [Fintype H] [Fintype z] [Fintype p] [DecidableEq z] [DecidableEq p]
variable {o' H' z' p' : Type} [Fintype o'] [DecidableEq H'] [Fintype H'] [Fintype z'] [Fintype p'] [DecidableEq z'] [DecidableEq p']
section Yaml
variable {D : Declared E ν ε K} {Z0 : Matrix o ν K} {Z1 : o → K} {tol : K} [DecidablePred (inall tol (yaml D Z0 Z1))]
  {lay : Layout tol (yaml D Z0 Z1) H z p}
  {orc : Oracle (Rows E H ε) (z ⊕ ε) p K} {lMax kMax : Nat} {sched : Nat → List Nat} {mod : Model z ε p o K}
variable {b : K} {Z0' : Matrix o' ν K} {Z1' : o' → K} {tol' : K} [DecidablePred (inall tol' (yaml (D.withBound b) Z0' Z1'))]
  {lay' : Layout tol' (yaml (D.withBound b) Z0' Z1') H' z' p'}
  {orc' : Oracle (Rows E H' ε) (z' ⊕ ε) p' K} {lMax' kMax' : Nat} {sched' : Nat → List Nat} {mod' : Model z' ε p' o' K}

section
variable (h : Succeeded lay orc lMax kMax sched mod) (h' : Succeeded lay' orc' lMax' kMax' sched' mod')
  (hlin : Spec.SameLinearCore id id lay mod lay' mod')
include h h' hlin

/-- a response in the model with the one bound is a response in that with the other -/
theorem announced_transfer {d : Nat → ν → K} {w : Nat → K} (hd : Spec.AnnouncedResponse lay mod d w) :
    Spec.AnnouncedResponse lay' mod' d w := by
  obtain ⟨n, hn⟩ := hd.ends
  refine ⟨fun s => hd.eqs s, fun s => hd.rule s, n, fun s hs => ?_⟩
  obtain ⟨r, h1, h2⟩ := hn s hs
  obtain ⟨r', hr'⟩ := expected_exists h' (Nat.zero_le _) (Nat.zero_le _) (prev 0 (fun s => stateOf lay' (d s)) s) (shockAt 0 s)
  refine ⟨r', hr', fun v => ?_⟩
  rw [h2 v]
  refine hlin _ _ _ r r' ?_ h1 hr' v
  rw [Function.comp_id, lagVal_prev_of lay 0 d h.square, lagVal_prev_of lay' 0 d h'.square, lagVal_zero_of h, lagVal_zero_of h']

variable (hlag : Spec.LagsNotExpected D) (hself : D.rb D.cvar ≠ 1) (hb : b ≤ D.xbar) (hP' : Spec.NoReversalOf lay' mod')
  (hZ' : Spec.LowersElsewhere lay' mod')
include hlag hself hb hP' hZ'

section
variable {st : p ⊕ z → K} {st' : p' ⊕ z' → K} {e e' : ε → K} {x x' : Nat → ν → K}
    (hx : Spec.EndsInEquilibrium lay mod st e x) (hx' : Spec.EndsInEquilibrium lay' mod' st' e' x') {Y : Nat → p ⊕ z → K} {Y' : Nat → p' ⊕ z' → K}
    (hY : ExpectedPath mod 0 0 st e Y) (hY' : ExpectedPath mod' 0 0 st' e' Y')
    (hc : ∀ s, lay.val (Y s) (.inl D.cvar) ≤ lay'.val (Y' s) (.inl D.cvar))
include hx hx' hY hY' hc

/-- **C146.** Let announced disturbances not reverse, and announced increases of the constrained variable not raise it in other periods. With a lower
bound (and the same linear path, or one along which the constrained variable is not lower) the constraint adds in every period at most as much. -/
theorem C146_adds_less (s : Nat) : Spec.lift (D.withBound b) (lagVal lay' st') e' x' s ≤ Spec.lift D (lagVal lay st) e x s := by
  have hd := announced_transfer h h' hlin (lift_response h hlag hself hx hY)
  refine C189_least h' hlag hself hP' hZ' hx' hY' hd (lift_nonneg hx.equilibrium) (fun s => ?_) s
  have h1 : x s D.cvar = max D.xbar _ := hx.equilibrium.con s
  have h2 : D.xbar ≤ x s D.cvar := by
    rw [h1]
    exact le_max_left _ _
  have h3 := hc s
  show b ≤ lay'.val (Y' s) (.inl D.cvar) + (x s D.cvar - lay.val (Y s) (.inl D.cvar))
  linarith

/-- **C146.** Variables that announced increases of the constrained variable lower are not lower with the lower bound, those that they raise are not
higher. -/
theorem C146_better (v : ν) (t : Nat) :
    (Spec.Lowers lay' mod' v t → lay.val (Y t) (.inl v) ≤ lay'.val (Y' t) (.inl v) → x t v ≤ x' t v) ∧
    (Spec.Raises lay' mod' v t → lay'.val (Y' t) (.inl v) ≤ lay.val (Y t) (.inl v) → x' t v ≤ x t v) := by
  have hw := C146_adds_less h h' hlin hlag hself hb hP' hZ' hx hx' hY hY' hc
  have h1 := announced_comb h' hlag hself hP' (announced_transfer h h' hlin (lift_response h hlag hself hx hY))
    (lift_response h' hlag hself hx' hY') (-1)
  have hpos : ∀ s, 0 ≤ Spec.lift D (lagVal lay st) e x s + -1 * Spec.lift (D.withBound b) (lagVal lay' st') e' x' s := fun s => by
    have := hw s
    linarith
  refine ⟨fun hv hy => ?_, fun hv hy => ?_⟩
  · have := hv _ _ h1 hpos
    simp only [Pi.sub_apply, Spec.declared] at this
    linarith
  · have := hv _ _ h1 hpos
    simp only [Pi.sub_apply, Spec.declared] at this
    linarith

end

/-- States of two models are ordered. -/
def Spec.OrderedAcross (lay : Layout tol (yaml D Z0 Z1) H z p) (lay' : Layout tol' (yaml (D.withBound b) Z0' Z1') H' z' p') (lo up : ν → Prop)
    (st : p ⊕ z → K) (st' : p' ⊕ z' → K) : Prop :=
  (∀ v, lo v → lay.val st (.inl v) ≤ lay'.val st' (.inl v)) ∧ ∀ v, up v → lay'.val st' (.inl v) ≤ lay.val st (.inl v)

/-- With the same shocks the linear models keep the order of states, and of the constrained variable. -/
def Spec.LinearOrdersAcross (lay : Layout tol (yaml D Z0 Z1) H z p) (mod : Model z ε p o K)
    (lay' : Layout tol' (yaml (D.withBound b) Z0' Z1') H' z' p') (mod' : Model z' ε p' o' K) (lo up : ν → Prop) : Prop :=
  ∀ st st' e r r', Spec.OrderedAcross lay lay' lo up st st' → tFunc mod st e .none true = .ok r → tFunc mod' st' e .none true = .ok r' →
    Spec.OrderedAcross lay lay' lo up r.state r'.state ∧ lay.val r.state (.inl D.cvar) ≤ lay'.val r'.state (.inl D.cvar)

variable (hk1 : 1 ≤ kMax) (hk1' : 1 ≤ kMax') {lo up : ν → Prop} (hlo : ∀ v, lo v → Spec.Lowers lay' mod' v 0)
  (hup : ∀ v, up v → Spec.Raises lay' mod' v 0) (h0 : Spec.LinearOrdersAcross lay mod lay' mod' lo up)
  (hF : Spec.FlagMeansEquilibrium lay mod) (hF' : Spec.FlagMeansEquilibrium lay' mod')
include hk1 hk1' hlo hup h0 hF hF'

/-- **C146.** One transition: from ordered states, the same shocks. -/
theorem C146_transition {st : p ⊕ z → K} {st' : p' ⊕ z' → K} {e : ε → K} (ho : Spec.OrderedAcross lay lay' lo up st st')
    {r : Step z p K} {r' : Step z' p' K} (hr : tFunc mod st e .none false = .ok r) (hr' : tFunc mod' st' e .none false = .ok r') (hf : r.flag = 0)
    (hf' : r'.flag = 0) : Spec.OrderedAcross lay lay' lo up r.state r'.state := by
  obtain ⟨c, hm⟩ := genSys_ok h.perm h.gen
  have hz := h.states
  obtain ⟨c', hm'⟩ := genSys_ok h'.perm h'.gen
  have hz' := h'.states
  obtain ⟨x, hx, hx0⟩ := transition_equilibrium h hk1 hlag hself hF hr hf
  obtain ⟨x', hx', hx0'⟩ := transition_equilibrium h' hk1' hlag hself hF' hr' hf'
  obtain ⟨Y, hY⟩ := linear_expectedPath hm st e
  obtain ⟨Y', hY'⟩ := linear_expectedPath hm' st' e
  have hel : ∀ t, elapsed 0 0 t = (0, 0) := by
    intro t
    unfold elapsed
    split_ifs <;> simp
  have hord : ∀ s, Spec.OrderedAcross lay lay' lo up (Y s) (Y' s) ∧ lay.val (Y s) (.inl D.cvar) ≤ lay'.val (Y' s) (.inl D.cvar) := by
    intro s
    induction s with
    | zero =>
      obtain ⟨r, g1, g2⟩ := hY 0
      obtain ⟨r', g1', g2'⟩ := hY' 0
      rw [hel] at g1 g1'
      rw [g2, g2']
      exact h0 _ _ _ _ _ ho g1 g1'
    | succ s ih =>
      obtain ⟨r, g1, g2⟩ := hY (s + 1)
      obtain ⟨r', g1', g2'⟩ := hY' (s + 1)
      rw [hel] at g1 g1'
      rw [g2, g2']
      exact h0 _ _ _ _ _ ih.1 g1 g1'
  have key := fun v => C146_better h h' hlin hlag hself hb hP' hZ' hx hx' hY hY' (fun s => (hord s).2) v 0
  refine ⟨fun v hv => ?_, fun v hv => ?_⟩
  · rw [hx0, hx0']
    exact (key v).1 (hlo v hv) ((hord 0).1.1 v hv)
  · rw [hx0, hx0']
    exact (key v).2 (hup v hv) ((hord 0).1.2 v hv)

/-- **C146.** Simulations with the same shocks: with the lower bound they are in every period at least as good. -/
theorem C146_simulations_ordered : ∀ (es : List (ε → K)) {st : p ⊕ z → K} {st' : p' ⊕ z' → K} {res : SimRes z p K} {res' : SimRes z' p' K},
    Spec.OrderedAcross lay lay' lo up st st' → simLoop mod false st es = .ok res → res.flag = 0 → simLoop mod' false st' es = .ok res' →
    res'.flag = 0 → List.Forall₂ (Spec.OrderedAcross lay lay' lo up) res.X res'.X := by
  intro es
  induction es with
  | nil =>
    intro st st' res res' hst h1 _ h2 _
    cases h1
    cases h2
    exact .cons hst .nil
  | cons e es ih =>
    intro st st' res res' hst h1 hf h2 hf'
    unfold simLoop at h1 h2
    generalize hr : tFunc mod st e .none false = x at h1
    rcases x with err | r
    · cases h1
    generalize hr' : tFunc mod' st' e .none false = x' at h2
    rcases x' with err | r'
    · cases h2
    simp only at h1 h2
    generalize hx : simLoop mod false r.state es = y at h1
    rcases y with err | y
    · cases h1
    generalize hx' : simLoop mod' false r'.state es = y' at h2
    rcases y' with err | y'
    · cases h2
    cases h1
    cases h2
    simp only [Nat.or_eq_zero_iff] at hf hf'
    exact .cons hst (ih (C146_transition h h' hlin hlag hself hb hP' hZ' hk1 hk1' hlo hup h0 hF hF' hst hr hr' hf.1 hf'.1) hx hf.2 hx' hf'.2)

end
end Yaml
end Pydsge
