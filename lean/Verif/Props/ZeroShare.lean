import Verif.Props.Exogenous
import Verif.Props.LanneNyberg
import Verif.Examples.Ex16

/-!
# C185: shocks have a share in the variance of a variable exactly if they move it, and none in processes they do not enter
-/

set_option autoImplicit false
set_option linter.unusedSectionVars false
set_option linter.unusedSimpArgs false

namespace Pydsge

open Matrix Pydsge.Engine Pydsge.Spec Pydsge.Tools Pydsge.GenSys Pydsge.Stats

section
variable {z ε p o K : Type} [Fintype z] [Fintype ε] [Fintype p] [Fintype o] [DecidableEq z] [DecidableEq ε] [DecidableEq p]
  [Field K] [LinearOrder K] [IsStrictOrderedRing K]

theorem addShocks_still (d : Draw z ε p o K) (linear : Bool) (horizon : Nat) (e : ε) (v : p ⊕ z) (hm : ¬ Spec.Moves linear horizon d e v) :
    ∀ (es : List ε) (g g' : ε → p ⊕ z → K), addShocks d linear horizon es g = .ok g' → g' e v = g e v
  | [], g, g', h => by
    simp only [addShocks, Except.ok.injEq] at h
    subst h
    rfl
  | x :: es, g, g', h => by
    unfold addShocks at h
    cases hs : sqDiff d linear horizon x with
    | error err => rw [hs] at h; cases h
    | ok s =>
      rw [hs] at h
      rw [addShocks_still d linear horizon e v hm es _ g' h]
      by_cases he : e = x
      · subst he
        obtain ⟨gx, ⟨a, b, ha, hb, rfl⟩, rfl⟩ := sqDiff_gi hs
        have : a v = b v := by
          by_contra hne
          exact hm ⟨a, b, ha, hb, hne⟩
        simp [this]
      · rw [Function.update_of_ne he]

theorem addDraws_still (shocks : List ε) (linear : Bool) (horizon : Nat) (e : ε) (v : p ⊕ z) : ∀ (ds : List (Draw z ε p o K))
    (g g' : ε → p ⊕ z → K), (∀ d ∈ ds, ¬ Spec.Moves linear horizon d e v) → addDraws shocks linear horizon ds g = .ok g' → g' e v = g e v
  | [], g, g', _, h => by
    simp only [addDraws, Except.ok.injEq] at h
    subst h
    rfl
  | d :: ds, g, g', hm, h => by
    unfold addDraws at h
    cases hs : addShocks d linear horizon shocks g with
    | error err => rw [hs] at h; cases h
    | ok g1 =>
      rw [hs] at h
      rw [addDraws_still shocks linear horizon e v ds g1 g' (fun d' hd => hm d' (List.mem_cons_of_mem _ hd)) h,
        addShocks_still d linear horizon e v (hm d (List.mem_cons_self ..)) shocks g g1 hs]

/-- **C185**: for a variable that some shock moves, the share of a shock is positive exactly if it moves the variable in some draw, and zero otherwise. -/
theorem C185_positive_iff (shocks : List ε) (hall : ∀ e, e ∈ shocks) (linear : Bool) (horizon : Nat) (sample : List (Draw z ε p o K))
    (vd : ε → p ⊕ z → Option K) (h : gfevd shocks linear horizon sample = .ok vd) (v : p ⊕ z)
    (hv : ∃ d ∈ sample, ∃ e, Spec.Moves linear horizon d e v) (e : ε) :
    ((∃ w, 0 < w ∧ vd e v = some w) ↔ ∃ d ∈ sample, Spec.Moves linear horizon d e v) ∧
      (vd e v = some 0 ↔ ∀ d ∈ sample, ¬ Spec.Moves linear horizon d e v) := by
  obtain ⟨w, h1, h2, _, h4⟩ := (C56_shares shocks hall linear horizon sample vd h v).1 hv
  have hz : (∀ d ∈ sample, ¬ Spec.Moves linear horizon d e v) → vd e v = some 0 := by
    intro hm
    have h' := h
    unfold gfevd at h'
    cases hg : addDraws shocks linear horizon sample 0 with
    | error err => simp [hg] at h'
    | ok g =>
      simp only [hg, Except.ok.injEq] at h'
      have h0 : g e v = 0 := addDraws_still shocks linear horizon e v sample 0 g hm hg
      have h5 := h1 e
      rw [← h'] at h5 ⊢
      simp only [h0] at h5 ⊢
      unfold fdiv at h5 ⊢
      by_cases hs : ∑ e', g e' v = 0
      · rw [if_pos hs] at h5; cases h5
      · rw [if_neg hs, zero_div]
  refine ⟨⟨?_, fun hm => ⟨w e, h4 e hm, h1 e⟩⟩, ⟨?_, hz⟩⟩
  · rintro ⟨x, hx, he⟩
    by_contra hm
    push Not at hm
    rw [hz hm, Option.some.injEq] at he
    exact hx.ne he
  · intro he d hd hm
    have := h4 e ⟨d, hd, hm⟩
    rw [h1 e, Option.some.injEq] at he
    exact this.ne' he

end

section
variable {E ν ε o K : Type} [Fintype E] [Fintype ν] [Fintype ε] [Fintype o]
  [DecidableEq E] [DecidableEq ν] [DecidableEq ε] [Field K] [LinearOrder K] [IsStrictOrderedRing K]
variable {H z p : Type} [DecidableEq H] [Fintype H] [Fintype z] [Fintype p] [DecidableEq z] [DecidableEq p]
variable {Eb Vb εb : Type} [Fintype Vb] [Fintype εb]
variable {D : Declared E ν ε K} {Z0 : Matrix o ν K} {Z1 : o → K} {tol : K} [DecidablePred (inall tol (yaml D Z0 Z1))]
  {lay : Layout tol (yaml D Z0 Z1) H z p} {orc : Oracle (Rows E H ε) (z ⊕ ε) p K} {lMax kMax : Nat} {sched : Nat → List Nat}
  {mod : Model z ε p o K} {P : Spec.Process Eb Vb εb K} {e : Eb → E} {v : Vb → ν} {u : εb → ε}

/-- **C185**, responses: a shock that does not enter a determined process does not move its variables, in any draw from the model and at any horizon, also if
it makes the constraint bind. -/
theorem C185_not_moved (h : Succeeded lay orc lMax kMax sched mod) (hk1 : 1 ≤ kMax) (hlag : Spec.LagsNotExpected D) (hself : D.rb D.cvar ≠ 1)
    (hP : Spec.HasProcess D P e v u) (hd : P.Determined) {x : ε} (hx : x ∉ Set.range u) (st : p ⊕ z → K) (resid : ε → K) (linear : Bool)
    (horizon : Nat) {i : p ⊕ z} {a : Vb} (hi : ∀ s : p ⊕ z → K, lay.val s (.inl (v a)) = s i) :
    ¬ Spec.Moves linear horizon ⟨mod, st, resid⟩ x i := by
  rintro ⟨s, s', ⟨xs, y, h1, _, h3, h4⟩, ⟨xs', y', h1', _, h3', h4'⟩, hne⟩
  simp only at h1 h1'
  have p1 := irfs_process h hk1 hlag hself hP _ horizon 0 _ xs h1
  have p2 := irfs_process h hk1 hlag hself hP _ horizon 0 _ xs' h1'
  have hz : ∀ (c : K) t, shkVec [(x, c, 0)] t ∘ u = 0 := by
    intro c t
    funext b
    have : x ≠ u b := fun hb => hx ⟨b, hb.symm⟩
    simp only [shkVec, List.foldl_cons, List.foldl_nil, Function.comp, Pi.zero_apply]
    split <;> simp [Function.update, this.symm]
  simp only [hz] at p1 p2
  have he := C183_one_path P hd _ _ _ _ p1 p2
  have g1 : (xs.map fun x w => lay.val x.state (.inl (v w)))[horizon - 1]? = some fun w => lay.val y.state (.inl (v w)) := by
    rw [List.getElem?_map, h3]; rfl
  have g2 : (xs'.map fun x w => lay.val x.state (.inl (v w)))[horizon - 1]? = some fun w => lay.val y'.state (.inl (v w)) := by
    rw [List.getElem?_map, h3']; rfl
  rw [he, g2] at g1
  have := congrFun (Option.some.inj g1) a
  simp only [hi, h4, h4'] at this
  exact hne this.symm

end

namespace Spec

/-- In this draw the entry `i` of a state is a variable of a determined process that shock `x` does not enter. The draw may have a model of its own. -/
inductive Outside {z ε p o K : Type} [Fintype z] [Fintype ε] [Fintype p] [Fintype o] [DecidableEq z] [DecidableEq ε] [DecidableEq p]
    [Field K] [LinearOrder K] [IsStrictOrderedRing K] (d : Draw z ε p o K) (x : ε) (i : p ⊕ z) : Prop
  | mk {E ν H Eb Vb εb : Type} [Fintype E] [Fintype ν] [DecidableEq E] [DecidableEq ν] [DecidableEq H] [Fintype H] [Fintype Vb] [Fintype εb]
      {D : Declared E ν ε K} {Z0 : Matrix o ν K} {Z1 : o → K} {tol : K} [DecidablePred (inall tol (yaml D Z0 Z1))]
      {lay : Layout tol (yaml D Z0 Z1) H z p} {orc : Oracle (Rows E H ε) (z ⊕ ε) p K} {lMax kMax : Nat} {sched : Nat → List Nat}
      {P : Process Eb Vb εb K} {e : Eb → E} {v : Vb → ν} {u : εb → ε}
      (h : Succeeded lay orc lMax kMax sched d.mod) (hk1 : 1 ≤ kMax) (hlag : LagsNotExpected D) (hself : D.rb D.cvar ≠ 1)
      (hP : HasProcess D P e v u) (hd : P.Determined) (hx : x ∉ Set.range u) (a : Vb)
      (hi : ∀ s : p ⊕ z → K, lay.val s (.inl (v a)) = s i) : Outside d x i

end Spec

section
variable {z ε p o K : Type} [Fintype z] [Fintype ε] [Fintype p] [Fintype o] [DecidableEq z] [DecidableEq ε] [DecidableEq p]
  [Field K] [LinearOrder K] [IsStrictOrderedRing K]

/-- **C185**: a shock has a share of zero in the variance of a process it does not enter, whatever the parameters, states and residuals in the sample. If no
shock moves the variable, its shares are NaN. -/
theorem C185_zero_share (shocks : List ε) (hall : ∀ e, e ∈ shocks) (linear : Bool) (horizon : Nat) (sample : List (Draw z ε p o K))
    (vd : ε → p ⊕ z → Option K) (h : gfevd shocks linear horizon sample = .ok vd) (x : ε) (i : p ⊕ z)
    (ho : ∀ d ∈ sample, Spec.Outside d x i) :
    ((∃ d ∈ sample, ∃ e, Spec.Moves linear horizon d e i) → vd x i = some 0) ∧
      ((∀ d ∈ sample, ∀ e, ¬ Spec.Moves linear horizon d e i) → vd x i = none) := by
  have hm : ∀ d ∈ sample, ¬ Spec.Moves linear horizon d x i := by
    intro d hd
    obtain ⟨h, hk1, hlag, hself, hP, hdet, hx, a, hi⟩ := ho d hd
    exact C185_not_moved h hk1 hlag hself hP hdet hx d.state d.resid linear horizon hi
  exact ⟨fun hv => ((C185_positive_iff shocks hall linear horizon sample vd h i hv x).2).2 hm,
    fun hn => (C56_shares shocks hall linear horizon sample vd h i).2 hn x⟩

end

/-! ## An example -/

/-- The first equation of the example: `y = 1/2 y(-1) + e₁`. -/
def Ex16.proc : Spec.Process Unit Unit Unit Rat := ⟨fun _ _ => 1, fun _ _ => -1/2, fun _ _ => -1⟩

theorem Ex16.hasProcess : Spec.HasProcess Ex16.decl Ex16.proc (fun _ => false) (fun _ => 0) (fun _ => false) where
  inj := fun _ _ _ => rfl
  injU := fun _ _ _ => rfl
  eA := by intro i w; simp [Ex16.decl]
  eB := by intro i a; simp [Ex16.decl, Ex16.proc]
  eC := by intro i a; simp [Ex16.decl, Ex16.proc]
  eD := by intro i a; simp [Ex16.decl, Ex16.proc]
  eB0 := by
    intro i w hw
    have : w ≠ 0 := fun h => hw ⟨(), h.symm⟩
    simp [Ex16.decl, this]
  eC0 := by
    intro i w hw
    have : w ≠ 0 := fun h => hw ⟨(), h.symm⟩
    simp [Ex16.decl, this]
  eD0 := by
    intro i w hw
    have : w ≠ false := fun h => hw ⟨(), h.symm⟩
    simp [Ex16.decl, this]

theorem Ex16.determined : Ex16.proc.Determined := by
  intro y hy
  funext i
  have := congrFun hy i
  simpa [Ex16.proc, mulVec, dotProduct] using this

theorem Ex16.response {lMax kMax : Nat} {sched : Nat → List Nat} {mod : Model Bool Bool (Fin 1) (Fin 1) Rat}
    (h : Succeeded Ex16.lay Ex16.orc lMax kMax sched mod) (e : Bool) (size : Rat) :
    ∃ a, Spec.Response mod 0 true 1 e size a ∧ a (.inr false) = if e then 0 else size := by
  obtain ⟨c, hm⟩ := genSys_ok h.perm h.gen
  have hk : Ex16.omg = mod.omg ∧ Ex16.lam = mod.lam := by
    have := hm.kl
    simpa [Ex16.orc] using this
  have e0 : shkVec [(e, size, (0 : Int))] 0 = Pi.single e size := by
    funext i; simp [shkVec, Pi.single, Function.update]
  obtain ⟨s0, a1, a2, a3⟩ := irfStep_linear h [(e, size, 0)] (sk := .bool false) (.inr rfl) true ⟨0, 0, 0, 0, false⟩ ⟨rfl, rfl⟩ 0
  refine ⟨_, ⟨[s0], s0, by simp [irfs, irfRun, a1], le_rfl, rfl, rfl⟩, ?_⟩
  rw [a3, e0, ← hk.2]
  cases e <;> simp [mulVec, dotProduct, Fintype.sum_sum_type, Ex16.lam, q0Of]

/-- Non-vacuity of C185: in the example the second shock is outside the process of `y`, the first shock moves it; the shares in the variance of `y` are one and zero. -/
theorem C185_hypotheses_met : ∃ mod, Succeeded Ex16.lay Ex16.orc 3 1 (serial 1) mod ∧
    (∀ u : Bool → Rat, Spec.Outside (⟨mod, 0, u⟩ : Draw _ _ _ _ _) true (.inr false)) ∧
    ∃ vd, gfevd [false, true] true 1 [⟨mod, 0, fun _ => 1⟩] = .ok vd ∧ vd true (.inr false) = some 0 ∧ vd false (.inr false) = some 1 := by
  obtain ⟨mod, h⟩ := Ex16.succeeds 3 1 (Ex16.serial_perm 3 1)
  have hout : ∀ u : Bool → Rat, Spec.Outside (⟨mod, 0, u⟩ : Draw _ _ _ _ _) true (.inr false) := by
    intro u
    refine .mk h le_rfl (Spec.LagsNotExpected.of_rc rfl) ?_ Ex16.hasProcess Ex16.determined ?_ () ?_
    · show (if (2 : Fin 3) = 0 then (1 : Rat) else 0) ≠ 1
      simp
    · rintro ⟨_, h⟩; cases h
    · intro s
      exact Ex16.lay.val_z s false
  have hsq : ∀ e, ∃ s, sqDiff (⟨mod, 0, fun _ => 1⟩ : Draw _ _ _ _ _) true 1 e = .ok s := by
    intro e
    obtain ⟨a, ha, -⟩ := Ex16.response h e 1
    obtain ⟨b, hb, -⟩ := Ex16.response h e 0
    refine ⟨fun v => (a v - b v) ^ 2, ?_⟩
    unfold sqDiff
    rw [(lastIrf_iff _ _ _ _ _ _).2 ha]
    dsimp only
    rw [(lastIrf_iff _ _ _ _ _ _).2 hb]
  obtain ⟨vd, hvd⟩ : ∃ vd, gfevd [false, true] true 1 [(⟨mod, 0, fun _ => 1⟩ : Draw _ _ _ _ _)] = .ok vd := by
    obtain ⟨s1, h1⟩ := hsq false
    obtain ⟨s2, h2⟩ := hsq true
    exact ⟨_, by simp only [gfevd, addDraws, addShocks, h1, h2]; rfl⟩
  have hmv : ∃ d ∈ [(⟨mod, 0, fun _ => 1⟩ : Draw Bool Bool (Fin 1) (Fin 1) Rat)], ∃ e, Spec.Moves true 1 d e (.inr false) := by
    obtain ⟨a, ha, ha'⟩ := Ex16.response h false 1
    obtain ⟨b, hb, hb'⟩ := Ex16.response h false 0
    exact ⟨_, List.mem_singleton.2 rfl, false, a, b, ha, hb, by rw [ha', hb']; simp⟩
  have h0 := (C185_zero_share [false, true] (by simp) true 1 _ vd hvd true (.inr false) (by
    intro d hd
    rw [List.mem_singleton.1 hd]
    exact hout _)).1 hmv
  refine ⟨mod, h, hout, vd, hvd, h0, ?_⟩
  obtain ⟨w, w1, _, w3, _⟩ := (C56_shares [false, true] (by simp) true 1 _ vd hvd (.inr false)).1 hmv
  rw [w1, Option.some.injEq] at h0
  rw [w1, Option.some.injEq]
  rw [Fintype.sum_bool, h0, zero_add] at w3
  exact w3

/-- In the example `y` is autoregressive in every transition, whatever spell is found or imposed (an instance of C183). -/
theorem C183_autoregressive {lMax kMax : Nat} {sched : Nat → List Nat} {mod : Model Bool Bool (Fin 1) (Fin 1) Rat}
    (h : Succeeded Ex16.lay Ex16.orc lMax kMax sched mod) (hk1 : 1 ≤ kMax) {st : Fin 1 ⊕ Bool → Rat} {eps : Bool → Rat} {sk : SetK} {lin : Bool}
    {r : Step Bool (Fin 1) Rat} (hr : tFunc mod st eps sk lin = .ok r) : r.state (.inr false) = 1/2 * st (.inr false) + eps false := by
  obtain ⟨h1, _⟩ := C183_transition h hk1 (Spec.LagsNotExpected.of_rc rfl) (by
    show (if (2 : Fin 3) = 0 then (1 : Rat) else 0) ≠ 1
    simp) Ex16.hasProcess hr
  have h2 := congrFun h1 ()
  have e1 : lagVal Ex16.lay st 0 = st (.inr false) := by
    unfold lagVal
    rw [if_neg (Ex16.not_inall 0)]
    exact Ex16.lay.val_z st false
  have e2 : Ex16.lay.val r.state (.inl 0) = r.state (.inr false) := Ex16.lay.val_z r.state false
  simp only [Ex16.proc, Pi.add_apply, mulVec, dotProduct, Finset.univ_unique, Finset.sum_singleton, Function.comp, Pi.zero_apply, e1, e2] at h2
  linarith

end Pydsge
