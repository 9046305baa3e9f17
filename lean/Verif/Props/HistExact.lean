import Verif.Props.Stats

/-!
# C57: exactly when historic decompositions add up
-/

set_option autoImplicit false
set_option linter.unusedSectionVars false
set_option linter.unusedSimpArgs false

namespace Pydsge

open Matrix Pydsge.Engine Pydsge.Tools Pydsge.GenSys Pydsge.Stats

section
variable {E' ν H z ε p o K : Type} [Fintype E'] [Fintype ν] [Fintype H] [Fintype z] [Fintype ε] [Fintype p] [Fintype o] [DecidableEq E']
  [DecidableEq ν] [DecidableEq H] [DecidableEq z] [DecidableEq ε] [DecidableEq p] [Field K] [LinearOrder K] [IsStrictOrderedRing K]
variable {tol : K} {m : Input E' ν ε o K} [DecidablePred (inall tol m)] {lay : Layout tol m H z p}
  {orc : Oracle (Rows E' H ε) (z ⊕ ε) p K} {lMax kMax : Nat} {sched : Nat → List Nat} {mod : Model z ε p o K}

/-- The spell `(l,k)` by itself has no effect: imposed at the steady state and without shocks, it leaves the model there. -/
def Spec.SpellIdle (mod : Model z ε p o K) (l k : Nat) : Prop := ∃ r, tFunc mod 0 0 (.pair l k) false = .ok r ∧ r.state = 0

/-- In every period with a spell, the linear part of the constraint's value is not zero, or the spell by itself has no effect. -/
def Spec.NothingLost (mod : Model z ε p o K) (lin : Bool) (X : List (p ⊕ z → K)) (es : List (ε → K)) : Prop :=
  ∀ (i : Nat) x e r, X[i]? = some x → es[i]? = some e → tFunc mod x e .none lin = .ok r → r.k ≠ 0 →
    Spec.linPart mod r.l r.k x e = 0 → Spec.SpellIdle mod r.l r.k

theorem spellIdle_iff (h : Succeeded lay orc lMax kMax sched mod) {l k : Nat} {c : Cell (z ⊕ ε) p K} (hc : mod.tables.pq l k = some c) :
    Spec.SpellIdle mod l k ↔ (Sum.elim c.pterm (fun i => c.qterm (.inl i)) : p ⊕ z → K) = 0 := by
  obtain ⟨cc, hm⟩ := genSys_ok h.perm h.gen
  obtain ⟨M', hS⟩ := hm.eng
  have := h.states
  have hb : l < lMax + 1 ∧ k < kMax + 1 := by
    by_contra hn
    rw [hS.complete.out l k hn] at hc
    cases hc
  have hcc := hS.complete.filled l k hb.1 hb.2
  rw [hc] at hcc
  obtain rfl := Option.some.inj hcc
  have h0 : q0Of (0 : p ⊕ z → K) (0 : ε → K) = 0 := by
    funext j; rcases j with j | j <;> rfl
  have e := tFunc_pair hm 0 0 (by omega : l ≤ lMax) (by omega : k ≤ kMax)
  rw [xPath_zero, h0, mulVec_zero, mulVec_zero, zero_add, zero_add] at e
  constructor
  · rintro ⟨r, h1, h2⟩
    rw [e] at h1
    rw [← Except.ok.inj h1] at h2
    exact h2
  · intro h1
    exact ⟨_, e, h1⟩

/-- One period: contributions that add up keep adding up if and only if the period has no spell, or the linear part of the constraint's value is not zero, or the spell has
no effect by itself. -/
theorem histStep_iff (h : Succeeded lay orc lMax kMax sched mod) (lin : Bool) (hst : Hist z ε p K) (e : ε → K) (r : Step z p K)
    (hr : tFunc mod hst.state e .none lin = .ok r) (hs : ∀ i, ∑ s, hst.hd s i = hst.state i) :
    ∃ h', histStep mod lin hst e = .ok (h', r.l, r.k) ∧ h'.state = r.state ∧
      ((∀ i, ∑ s, h'.hd s i = h'.state i) ↔ (r.k ≠ 0 → Spec.linPart mod r.l r.k hst.state e = 0 → Spec.SpellIdle mod r.l r.k)) := by
  obtain ⟨h', h1, h2, h3⟩ := histStep_ok h lin hst e r hr
  refine ⟨h', h1, h2, ?_⟩
  by_cases hn : r.k ≠ 0 → Spec.linPart mod r.l r.k hst.state e ≠ 0
  · exact ⟨fun _ hk hl => absurd hl (hn hk), fun _ => h3 hs hn⟩
  · push Not at hn
    obtain ⟨hk0, hlin⟩ := hn
    obtain ⟨c, hc, hstate⟩ := tFunc_cell mod _ _ _ _ _ hr
    obtain ⟨hl, hk, hterm, row, hrow⟩ := solved_tables h hc
    have hz : ∑ s, row.1 ⬝ᵥ contribV hst e s = 0 := by
      rw [← dotProduct_sum, sum_contribV hst e hs]
      unfold Spec.linPart at hlin
      rw [hrow] at hlin
      exact hlin
    unfold histStep at h1
    simp only [hr, if_pos (And.intro hl hk), hc, if_neg hk0, hrow, if_pos hz, Except.ok.injEq, Prod.mk.injEq, and_true] at h1
    subst h1
    simp only [hk0, ne_eq, not_false_eq_true, hlin, forall_true_left, spellIdle_iff h hc]
    have key : ∀ i, ∑ s, (Sum.elim (c.pmat *ᵥ contribV hst e s) (fun i => (c.qmat *ᵥ contribV hst e s) (.inl i)) : p ⊕ z → K) i =
        r.state i - (Sum.elim c.pterm (fun i => c.qterm (.inl i)) : p ⊕ z → K) i := by
      intro i
      rw [sum_base c _ _ (sum_contribV hst e hs), hstate]
      rcases i with i | i <;> simp
    constructor
    · intro ha
      funext i
      have := ha i
      rw [key i] at this
      simpa using this
    · intro ha i
      rw [key i, ha]
      simp

theorem histLoop_iff (h : Succeeded lay orc lMax kMax sched mod) (lin : Bool) : ∀ (es : List (ε → K)) (h0 : Hist z ε p K) (res : SimRes z p K),
    simLoop mod lin h0.state es = .ok res → (∀ i, ∑ s, h0.hd s i = h0.state i) →
    ∃ hs, histLoop mod lin h0 es = .ok hs ∧ ((∀ g ∈ hs, ∀ i, ∑ s, g.hd s i = g.state i) ↔ Spec.NothingLost mod lin res.X es)
  | [], h0, res, hr, _ => ⟨[], rfl, by simp [Spec.NothingLost]⟩
  | e :: es, h0, res, hr, ha => by
    unfold simLoop at hr
    cases ht : tFunc mod h0.state e .none lin with
    | error err => simp [ht] at hr
    | ok r =>
      simp only [ht] at hr
      obtain ⟨h', h1, h2, h3⟩ := histStep_iff h lin h0 e r ht ha
      cases hl : simLoop mod lin r.state es with
      | error err => simp [hl] at hr
      | ok res' =>
        simp only [hl, Except.ok.injEq] at hr
        subst hr
        rw [← h2] at hl
        obtain ⟨hs', g1, g2, -⟩ := histLoop_ok h lin es h' res' hl
        have hloop : histLoop mod lin h0 (e :: es) = .ok (h' :: hs') := by
          unfold histLoop
          simp only [h1, g1]
        refine ⟨h' :: hs', hloop, ?_⟩
        have hsplit : Spec.NothingLost mod lin (h0.state :: res'.X) (e :: es) ↔
            (r.k ≠ 0 → Spec.linPart mod r.l r.k h0.state e = 0 → Spec.SpellIdle mod r.l r.k) ∧ Spec.NothingLost mod lin res'.X es := by
          constructor
          · intro hn
            exact ⟨hn 0 h0.state e r rfl rfl ht, fun i x e' r' hx he => hn (i + 1) x e' r' (by simpa using hx) (by simpa using he)⟩
          · rintro ⟨a, b⟩ i x e' r' hx he ht'
            cases i with
            | zero =>
              simp only [List.getElem?_cons_zero, Option.some.injEq] at hx he
              subst hx he
              rw [ht] at ht'
              obtain rfl := Except.ok.inj ht'
              exact a
            | succ i => exact b i x e' r' (by simpa using hx) (by simpa using he) ht'
        rw [hsplit, ← h3]
        constructor
        · intro hall
          have hh := hall h' (by simp)
          obtain ⟨hs2, e1, e2⟩ := histLoop_iff h lin es h' res' hl hh
          rw [g1] at e1
          obtain rfl := Except.ok.inj e1
          exact ⟨hh, e2.1 fun g hg => hall g (by simp [hg])⟩
        · rintro ⟨hh, hn⟩ g hg
          obtain ⟨hs2, e1, e2⟩ := histLoop_iff h lin es h' res' hl hh
          rw [g1] at e1
          obtain rfl := Except.ok.inj e1
          rcases List.mem_cons.1 hg with rfl | hg
          · exact hh
          · exact e2.2 hn g hg

/-- **C57**, exact condition for one sample: the contributions of the shocks add up to the simulated state in all periods if and only if, in every period with a
spell, the linear part of the constraint's value is not zero or the spell has no effect by itself. -/
theorem C57_sample_iff [Nonempty ε] (T : Nat) (lin : Bool) (s : Sample z ε p o K) (h : Succeeded lay orc lMax kMax sched s.mod)
    (res : SimRes z p K) (hr : simLoop s.mod lin s.init s.resid = .ok res) (hT : s.resid.length + 1 = T) :
    ∃ hs, histSample T lin s = .ok hs ∧ hs.map Hist.state = res.X ∧
      ((∀ g ∈ hs, ∀ i, ∑ e, g.hd e i = g.state i) ↔ Spec.NothingLost s.mod lin res.X s.resid) := by
  obtain ⟨hs, h1, h2, -⟩ := C57_sample_partial T lin s h res hr hT
  refine ⟨hs, h1, h2, ?_⟩
  have hcard : (Fintype.card ε : K) ≠ 0 := by
    have := Fintype.card_ne_zero (α := ε)
    exact_mod_cast this
  have hinit : ∀ i, ∑ e : ε, (histInit (ε := ε) s.init).hd e i = (histInit (ε := ε) s.init).state i := by
    intro i
    simp only [histInit, Finset.sum_const, Finset.card_univ, nsmul_eq_mul]
    field_simp
  obtain ⟨hs', g1, g2⟩ := histLoop_iff h lin s.resid (histInit s.init) res hr hinit
  unfold histSample at h1
  rw [if_neg (by omega : ¬ T = 0)] at h1
  simp only [g1] at h1
  split_ifs at h1
  obtain rfl := Except.ok.inj h1
  rw [← g2]
  constructor
  · intro ha g hg
    exact ha g (by simp [hg])
  · intro ha g hg
    rcases List.mem_cons.1 hg with rfl | hg
    · exact hinit
    · exact ha g hg

end

/-- **C57**: the condition can fail (the sample of `C57_refuted`). -/
theorem C57_lost {sched : Nat → List Nat} {mod : Model (Fin 1) (Fin 1) Bool (Fin 1) Rat}
    (h : Succeeded Ex3.lay Ex3.orc 3 1 sched mod) : ∃ res, simLoop mod false 0 [fun _ => -2] = .ok res ∧
      ¬ Spec.NothingLost mod false res.X [fun _ => -2] := by
  obtain ⟨r, hr, hl, hk, _, hst⟩ := Ex3.later_run h
  have hsim : simLoop mod false 0 [fun _ => -2] = .ok ⟨[0, r.state], [(r.l, r.k)], r.flag ||| 0⟩ := by
    unfold simLoop
    rw [hr]
    rfl
  refine ⟨_, hsim, fun hn => ?_⟩
  obtain ⟨hs, e1, e2, e3⟩ := C57_sample_iff 2 false ⟨mod, 0, [fun _ => -2]⟩ h _ hsim rfl
  obtain ⟨hd, means, f1, f2, f3⟩ := C57_refuted h
  have := C57_average 2 false [⟨mod, 0, [fun _ => -2]⟩] hd means f1 (by
    intro s hs' hs2 he
    rw [List.mem_singleton] at hs'
    subst hs'
    rw [e1] at he
    obtain rfl := Except.ok.inj he
    exact e3.2 hn) 1 (.inl false)
  rw [f2, f3] at this
  norm_num at this

end Pydsge
