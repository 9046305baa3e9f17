import Verif.Props.Stats
import Verif.Props.LanneNyberg

/-!
# C159: without a binding constraint the historic decomposition is a set of linear counterfactuals
-/

set_option autoImplicit false
set_option linter.unusedSectionVars false
set_option linter.unusedSimpArgs false

namespace Pydsge

open Matrix Pydsge.Engine Pydsge.Spec Pydsge.Tools Pydsge.GenSys Pydsge.Stats

section
variable {E' ν H z ε p o K : Type} [Fintype E'] [Fintype ν] [Fintype H] [Fintype z] [Fintype ε] [Fintype p] [Fintype o] [DecidableEq E']
  [DecidableEq ν] [DecidableEq H] [DecidableEq z] [DecidableEq ε] [DecidableEq p] [Field K] [LinearOrder K] [IsStrictOrderedRing K]

/-- The shocks of a sample with all but `e` set to zero. -/
def Spec.onlyShock (e : ε) (us : List (ε → K)) : List (ε → K) := us.map fun u => Pi.single e (u e)

/-- The counterfactual of one shock: the linear simulation with this shock alone, from the initial state divided by the number of shocks. -/
def Spec.SingleShock (s : Sample z ε p o K) (e : ε) (xs : List (p ⊕ z → K)) : Prop :=
  ∃ r, simLoop s.mod true (fun i => s.init i / (Fintype.card ε : K)) (Spec.onlyShock e s.resid) = .ok r ∧ r.X = xs

section One
variable {tol : K} {m : Input E' ν ε o K} [DecidablePred (inall tol m)] {lay : Layout tol m H z p}
  {orc : Oracle (Rows E' H ε) (z ⊕ ε) p K} {lMax kMax : Nat} {sched : Nat → List Nat} {mod : Model z ε p o K}

theorem tFunc_lin_ok (h : Succeeded lay orc lMax kMax sched mod) (st : p ⊕ z → K) (e : ε → K) :
    tFunc mod st e .none true =
      .ok ⟨Sum.elim (mod.omg *ᵥ q0Of st e) (fun i => (mod.lam *ᵥ q0Of st e) (.inl i)), 0, 0, 0⟩ := by
  obtain ⟨c, hm⟩ := genSys_ok h.perm h.gen
  have := h.states
  obtain ⟨⟨r, hr, hr2⟩, _⟩ := C08_linear_solution_everywhere h st e (Nat.zero_le lMax)
  have := tFunc_pair hm st e (Nat.zero_le lMax) (Nat.zero_le kMax)
  simp only [Nat.cast_zero] at this
  rw [tFunc_linear] at hr ⊢
  rw [this, Except.ok.injEq] at hr
  rw [this, ← hr2, ← hr]

/-- A cell without a spell is the linear solution. -/
theorem solved_k0 (h : Succeeded lay orc lMax kMax sched mod) {l : Nat} {c : Cell (z ⊕ ε) p K} (hc : mod.tables.pq l 0 = some c) :
    c.pmat = mod.omg ∧ c.qmat = mod.lam := by
  obtain ⟨cc, hm⟩ := genSys_ok h.perm h.gen
  obtain ⟨M', hS⟩ := hm.eng
  have hb : l < lMax + 1 ∧ 0 < kMax + 1 := by
    by_contra hn
    rw [hS.complete.out l 0 hn] at hc
    cases hc
  have hcc := hS.complete.filled l 0 hb.1 hb.2
  rw [hc] at hcc
  obtain rfl := Option.some.inj hcc
  rw [cells_l0 hS (sysOf_T12 h.orc).1 (h.orc.klein _ _ hm.kl) (by omega : l ≤ lMax)]
  exact ⟨rfl, rfl⟩

theorem histLoop_slack (h : Succeeded lay orc lMax kMax sched mod) (lin : Bool) : ∀ (es : List (ε → K)) (h0 : Hist z ε p K) (res : SimRes z p K),
    simLoop mod lin h0.state es = .ok res → (∀ lk ∈ res.LK, lk.2 = 0) →
    ∃ hs, histLoop mod lin h0 es = .ok hs ∧ hs.length = es.length ∧
      ∀ e, ∃ r, simLoop mod true (h0.hd e) (Spec.onlyShock e es) = .ok r ∧ r.X = h0.hd e :: hs.map fun g => g.hd e
  | [], h0, res, hr, _ => ⟨[], rfl, rfl, fun e => ⟨_, rfl, rfl⟩⟩
  | u :: es, h0, res, hr, hk => by
    unfold simLoop at hr
    cases ht : tFunc mod h0.state u .none lin with
    | error err => simp [ht] at hr
    | ok r =>
      simp only [ht] at hr
      cases hl : simLoop mod lin r.state es with
      | error err => simp [hl] at hr
      | ok res' =>
        simp only [hl, Except.ok.injEq] at hr
        subst hr
        have hk0 : r.k = 0 := hk (r.l, r.k) (List.mem_cons_self ..)
        obtain ⟨c, hc, -⟩ := tFunc_cell mod _ _ _ _ _ ht
        obtain ⟨b1, b2, -, -⟩ := solved_tables h hc
        rw [hk0] at hc b2
        obtain ⟨c1, c2⟩ := solved_k0 h hc
        have hstep : histStep mod lin h0 u = .ok (⟨r.state, fun s => Sum.elim (mod.omg *ᵥ contribV h0 u s)
            (fun i => (mod.lam *ᵥ contribV h0 u s) (.inl i))⟩, r.l, 0) := by
          unfold histStep
          simp only [ht, hk0, if_pos (And.intro b1 b2), hc, c1, c2, if_true]
        obtain ⟨hs, g1, g2, g3⟩ := histLoop_slack h lin es ⟨r.state, fun s => Sum.elim (mod.omg *ᵥ contribV h0 u s)
          (fun i => (mod.lam *ᵥ contribV h0 u s) (.inl i))⟩ res' hl (fun lk hm => hk lk (List.mem_cons_of_mem _ hm))
        refine ⟨_ :: hs, by unfold histLoop; simp only [hstep, g1]; rfl, by simp [g2], fun e => ?_⟩
        obtain ⟨r', h1, h2⟩ := g3 e
        have hq : contribV h0 u e = q0Of (h0.hd e) (Pi.single e (u e)) := rfl
        simp only [Spec.onlyShock, List.map_cons, simLoop, tFunc_lin_ok h]
        simp only [Spec.onlyShock, hq] at h1
        rw [h1]
        exact ⟨_, rfl, by simp only [h2, List.map_cons, hq]⟩

/-- **C159**, one sample: if the constraint binds in no expected path of the sample, in particular with `linear=True`, then the
contribution of every shock is its linear counterfactual. -/
theorem C159_sample (T : Nat) (lin : Bool) (s : Sample z ε p o K) (h : Succeeded lay orc lMax kMax sched s.mod)
    (res : SimRes z p K) (hr : simLoop s.mod lin s.init s.resid = .ok res) (hk : ∀ lk ∈ res.LK, lk.2 = 0) (hT : s.resid.length + 1 = T) :
    ∃ hs, histSample T lin s = .ok hs ∧ hs.length = T ∧ ∀ e, Spec.SingleShock s e (hs.map fun g => g.hd e) := by
  obtain ⟨hs, h1, h2, h3⟩ := histLoop_slack h lin s.resid (histInit s.init) res hr hk
  refine ⟨histInit s.init :: hs, ?_, by simp [h2, hT], fun e => ?_⟩
  · unfold histSample
    rw [if_neg (by omega : ¬ T = 0)]
    simp only [h1]
    rw [if_neg (by omega), if_neg (by omega)]
  · obtain ⟨r, g1, g2⟩ := h3 e
    exact ⟨r, g1, by rw [g2, List.map_cons]⟩

theorem simLoop_linear_slack (h : Succeeded lay orc lMax kMax sched mod) : ∀ (es : List (ε → K)) (st : p ⊕ z → K),
    ∃ res, simLoop mod true st es = .ok res ∧ ∀ lk ∈ res.LK, lk.2 = 0
  | [], st => ⟨_, rfl, by simp⟩
  | u :: es, st => by
    obtain ⟨res, h1, h2⟩ := simLoop_linear_slack h es
      (Sum.elim (mod.omg *ᵥ q0Of st u) (fun i => (mod.lam *ᵥ q0Of st u) (.inl i)))
    simp only [simLoop, tFunc_lin_ok h, h1]
    exact ⟨_, rfl, by simpa using h2⟩

end One

section Many
variable {ι : Type} {tol : K} {m : ι → Input E' ν ε o K} [∀ j, DecidablePred (inall tol (m j))] {lay : ∀ j, Layout tol (m j) H z p}
  {orc : ι → Oracle (Rows E' H ε) (z ⊕ ε) p K} {lMax kMax : Nat} {sched : Nat → List Nat}

/-- **C159**: `nhd` with `linear=True` returns for every shock, period and variable the average over the samples of the linear counterfactuals with
this shock alone (from the initial state divided by the number of shocks); the samples may have different parameters. -/
theorem C159_linear (T : Nat) (samples : List (Sample z ε p o K)) (hs : ∀ s ∈ samples, ∃ j, Succeeded (lay j) (orc j) lMax kMax sched s.mod)
    (hT : ∀ s ∈ samples, s.resid.length + 1 = T) :
    ∃ hd means, nhd T true samples = .ok (hd, means) ∧
      ∀ e, ∃ ys, List.Forall₂ (fun s xs => Spec.SingleShock s e xs) samples ys ∧
        ∀ t i, t < T → ∃ vs, List.Forall₂ (fun xs v => ∃ x, xs[t]? = some x ∧ x i = v) ys vs ∧
          hd e t i = vs.sum / (samples.length : K) := by
  have hmap : ∀ ss : List (Sample z ε p o K), (∀ s ∈ ss, s ∈ samples) → ∃ xs, ss.mapM (histSample T true) = .ok xs ∧
      List.Forall₂ (fun s hs => hs.length = T ∧ ∀ e, Spec.SingleShock s e (hs.map fun g => g.hd e)) ss xs := by
    intro ss
    induction ss with
    | nil => intro _; exact ⟨[], rfl, .nil⟩
    | cons s ss ih =>
      intro hm
      obtain ⟨xs, h1, h2⟩ := ih fun s hs => hm s (List.mem_cons_of_mem _ hs)
      have hmem := hm s (List.mem_cons_self ..)
      obtain ⟨j, hj⟩ := hs s hmem
      obtain ⟨res, r1, r2⟩ := simLoop_linear_slack hj s.resid s.init
      obtain ⟨g, g1, g2, g3⟩ := C159_sample T true s hj res r1 r2 (hT s hmem)
      exact ⟨g :: xs, by rw [List.mapM_cons, g1, h1]; rfl, .cons ⟨g2, g3⟩ h2⟩
  obtain ⟨xs, h1, h2⟩ := hmap samples fun s hs => hs
  refine ⟨_, _, by unfold nhd; rw [h1], fun e => ⟨xs.map fun hs => hs.map fun g => g.hd e, ?_, ?_⟩⟩
  · clear h1
    rw [List.forall₂_map_right_iff]
    exact h2.imp fun s hs h => h.2 e
  · intro t i ht
    have hlen : xs.length = samples.length := h2.length_eq.symm
    refine ⟨xs.map fun hs => match hs[t]? with
      | some h => h.hd e i
      | none => 0, ?_, by simp only [sampleMean, hlen]; rfl⟩
    rw [List.forall₂_map_left_iff, List.forall₂_map_right_iff, List.forall₂_same]
    intro hs hmem
    have hl : hs.length = T := by
      obtain ⟨k, hk, rfl⟩ := List.mem_iff_getElem.1 hmem
      exact (h2.get (by omega) hk).1
    refine ⟨(hs[t]'(by omega)).hd e, ?_, ?_⟩
    · rw [List.getElem?_map, List.getElem?_eq_getElem (by omega)]; rfl
    · rw [List.getElem?_eq_getElem (by omega)]

end Many
end

section NonVacuity
open Pydsge.Ex11

/-- Two shocks, a sample of two periods: the contributions are the counterfactuals. -/
theorem C159_hypotheses_met : ∃ mod, Succeeded Ex11.lay Ex11.orc 3 1 (serial 1) mod ∧
    ∃ hs, histSample 3 true ⟨mod, fun _ => 4, [fun _ => 3, fun _ => 6]⟩ = .ok hs ∧
      (hs.map fun g => g.hd false) = [fun _ => 2, fun _ => 3, fun _ => 11/2] ∧
      (hs.map fun g => g.hd true (.inl 0)) = [2, 4, 13/2] := by
  obtain ⟨mod, h⟩ := ex11_succeeds 3 1
  obtain ⟨res, r1, r2⟩ := simLoop_linear_slack h [fun _ => 3, fun _ => 6] (fun _ => 4)
  obtain ⟨hs, g1, g2, g3⟩ := C159_sample 3 true ⟨mod, fun _ => 4, [fun _ => 3, fun _ => 6]⟩ h res r1 r2 rfl
  obtain ⟨c, hm⟩ := genSys_ok h.perm h.gen
  have hk : omg = mod.omg ∧ lam = mod.lam := by
    have := hm.kl
    simpa [orc] using this
  have hnext : ∀ (st : Fin 1 ⊕ Fin 1 → Rat) (u : Bool → Rat),
      Sum.elim (mod.omg *ᵥ q0Of st u) (fun i => (mod.lam *ᵥ q0Of st u) (.inl i)) = Ex11.next st u := by
    intro st u
    rw [← hk.1, ← hk.2]
    funext i
    rcases i with i | i <;>
      simp [mulVec, dotProduct, Fintype.sum_sum_type, omg, lam, q0Of, Ex11.next] <;> ring
  refine ⟨mod, h, hs, g1, ?_, ?_⟩
  · obtain ⟨r, a, b⟩ := g3 false
    simp only [Spec.onlyShock, List.map_cons, List.map_nil, simLoop, tFunc_lin_ok h, hnext, Except.ok.injEq] at a
    subst a
    rw [← b]
    simp only [List.cons.injEq, and_true]
    refine ⟨?_, ?_, ?_⟩ <;> funext i <;> rcases i with i | i <;> simp [Ex11.next] <;> norm_num
  · obtain ⟨r, a, b⟩ := g3 true
    simp only [Spec.onlyShock, List.map_cons, List.map_nil, simLoop, tFunc_lin_ok h, hnext, Except.ok.injEq] at a
    subst a
    have := congrArg (fun l => l.map fun (x : Fin 1 ⊕ Fin 1 → Rat) => x (.inl 0)) b
    simp only [List.map_map] at this
    rw [show (fun g : Hist (Fin 1) Bool (Fin 1) Rat => g.hd true (.inl 0)) = (fun x : Fin 1 ⊕ Fin 1 → Rat => x (.inl 0)) ∘ fun g => g.hd true from rfl,
      ← this]
    simp [Ex11.next]
    norm_num

end NonVacuity
end Pydsge
