import Verif.Props.Stats
import Verif.Examples.Ex11

/-!
# C158: the decomposition of Lanne and Nyberg
-/

set_option autoImplicit false
set_option linter.unusedSectionVars false
set_option linter.unusedSimpArgs false

namespace Pydsge

open Matrix Pydsge.Engine Pydsge.Spec Pydsge.Tools Pydsge.GenSys Pydsge.Stats

section
variable {z ε p o K : Type} [Fintype z] [Fintype ε] [Fintype p] [Fintype o] [DecidableEq z] [DecidableEq ε] [DecidableEq p]
  [Field K] [LinearOrder K] [IsStrictOrderedRing K]

namespace Spec

/-- The generalised impulse response in period `t` (the first period is 1): the state after the drawn shock to `e`, less the state after
none. -/
def GIAt (linear : Bool) (d : Draw z ε p o K) (e : ε) (t : Nat) (g : p ⊕ z → K) : Prop :=
  ∃ a b, Response d.mod d.state linear t e (d.resid e) a ∧ Response d.mod d.state linear t e 0 b ∧ g = a - b

/-- Lanne & Nyberg (2016), for one history: squared responses summed over the periods up to the horizon, relative to those of all
shocks. -/
def LNShare (linear : Bool) (horizon : Nat) (d : Draw z ε p o K) (e : ε) (v : p ⊕ z) (x : K) : Prop :=
  ∃ g : ε → Nat → p ⊕ z → K, (∀ e' t, 1 ≤ t → t ≤ horizon → GIAt linear d e' t (g e' t)) ∧
    ∑ e', ∑ t ∈ Finset.Icc 1 horizon, g e' t v ^ 2 ≠ 0 ∧
    x = (∑ t ∈ Finset.Icc 1 horizon, g e t v ^ 2) / ∑ e', ∑ t ∈ Finset.Icc 1 horizon, g e' t v ^ 2

/-- ... and their average over the histories of the sample. -/
def LanneNyberg (linear : Bool) (horizon : Nat) (sample : List (Draw z ε p o K)) (e : ε) (v : p ⊕ z) (x : K) : Prop :=
  ∃ xs, List.Forall₂ (fun d y => LNShare linear horizon d e v y) sample xs ∧ x = xs.sum / (sample.length : K)

end Spec

theorem giAt_unique {linear : Bool} {d : Draw z ε p o K} {e : ε} {t : Nat} {g g' : p ⊕ z → K} (h : Spec.GIAt linear d e t g)
    (h' : Spec.GIAt linear d e t g') : g = g' := by
  obtain ⟨a, b, h1, h2, rfl⟩ := h
  obtain ⟨a', b', h1', h2', rfl⟩ := h'
  rw [← lastIrf_iff] at h1 h2 h1' h2'
  rw [h1] at h1'
  rw [h2] at h2'
  cases h1'
  cases h2'
  rfl

theorem sqDiff_gi {linear : Bool} {d : Draw z ε p o K} {e : ε} {t : Nat} {s : p ⊕ z → K} (h : sqDiff d linear t e = .ok s) :
    ∃ g, Spec.GIAt linear d e t g ∧ s = fun v => g v ^ 2 := by
  unfold sqDiff at h
  cases ha : lastIrf d linear t e (d.resid e) with
  | error err => rw [ha] at h; cases h
  | ok a =>
    cases hb : lastIrf d linear t e 0 with
    | error err => rw [ha] at h; simp only [hb] at h; cases h
    | ok b =>
      rw [ha] at h
      simp only [hb, Except.ok.injEq] at h
      exact ⟨a - b, ⟨a, b, (lastIrf_iff _ _ _ _ _ _).1 ha, (lastIrf_iff _ _ _ _ _ _).1 hb, rfl⟩, h.symm⟩

theorem addShocks_gi {linear : Bool} {horizon : Nat} {d : Draw z ε p o K} {G : ε → p ⊕ z → K} : ∀ (es : List ε) (g g' : ε → p ⊕ z → K),
    es.Nodup → (∀ e ∈ es, Spec.GIAt linear d e horizon (G e)) → addShocks d linear horizon es g = .ok g' →
    ∀ e v, g' e v = g e v + if e ∈ es then G e v ^ 2 else 0
  | [], g, g', _, _, h, e, v => by
    simp only [addShocks, Except.ok.injEq] at h
    subst h
    simp
  | x :: es, g, g', hn, hG, h, e, v => by
    rw [List.nodup_cons] at hn
    unfold addShocks at h
    cases hs : sqDiff d linear horizon x with
    | error err => rw [hs] at h; cases h
    | ok s =>
      rw [hs] at h
      obtain ⟨gx, h1, h2⟩ := sqDiff_gi hs
      have := giAt_unique h1 (hG x (List.mem_cons_self ..))
      subst this h2
      rw [addShocks_gi es _ g' hn.2 (fun e he => hG e (List.mem_cons_of_mem _ he)) h e v]
      by_cases he : e = x
      · subst he
        simp [hn.1]
      · simp [Function.update_of_ne he, he]

theorem addDraws_gi {linear : Bool} {horizon : Nat} {G : Draw z ε p o K → ε → p ⊕ z → K} {shocks : List ε} (hall : ∀ e, e ∈ shocks)
    (hn : shocks.Nodup) : ∀ (sample : List (Draw z ε p o K)) (g g' : ε → p ⊕ z → K),
    (∀ d ∈ sample, ∀ e, Spec.GIAt linear d e horizon (G d e)) → addDraws shocks linear horizon sample g = .ok g' →
    ∀ e v, g' e v = g e v + (sample.map fun d => G d e v ^ 2).sum
  | [], g, g', _, h, e, v => by
    simp only [addDraws, Except.ok.injEq] at h
    subst h
    simp
  | d :: ds, g, g', hG, h, e, v => by
    unfold addDraws at h
    cases hs : addShocks d linear horizon shocks g with
    | error err => rw [hs] at h; cases h
    | ok g1 =>
      rw [hs] at h
      rw [addDraws_gi hall hn ds g1 g' (fun d' hd => hG d' (List.mem_cons_of_mem _ hd)) h e v,
        addShocks_gi shocks g g1 hn (fun e _ => hG d (List.mem_cons_self ..) e) hs e v, if_pos (hall e), List.map_cons, List.sum_cons]
      ring

/-- **C158**, what is computed: the squared responses of the last period only, summed over the sample, relative to those of all shocks. -/
theorem C158_computed {shocks : List ε} (hall : ∀ e, e ∈ shocks) (hn : shocks.Nodup) {linear : Bool} {horizon : Nat}
    {sample : List (Draw z ε p o K)} {vd : ε → p ⊕ z → Option K} (h : gfevd shocks linear horizon sample = .ok vd)
    (G : Draw z ε p o K → ε → p ⊕ z → K) (hG : ∀ d ∈ sample, ∀ e, Spec.GIAt linear d e horizon (G d e)) (e : ε) (v : p ⊕ z) :
    vd e v = if ∑ e', (sample.map fun d => G d e' v ^ 2).sum = 0 then none
      else some ((sample.map fun d => G d e v ^ 2).sum / ∑ e', (sample.map fun d => G d e' v ^ 2).sum) := by
  unfold gfevd at h
  cases hg : addDraws shocks linear horizon sample 0 with
  | error err => simp [hg] at h
  | ok g =>
    simp only [hg, Except.ok.injEq] at h
    subst h
    have := addDraws_gi hall hn sample 0 g hG hg
    simp only [fdiv, this, Pi.zero_apply, zero_add]

/-- **C158** (holds for a horizon of one period and a sample in which the squared responses of all shocks together are the same in every
draw, for instance a single draw): `gfevd` returns the decomposition of Lanne and Nyberg. -/
theorem C158_lanne_nyberg_partial {shocks : List ε} (hall : ∀ e, e ∈ shocks) (hn : shocks.Nodup) {linear : Bool}
    {sample : List (Draw z ε p o K)} {vd : ε → p ⊕ z → Option K} (h : gfevd shocks linear 1 sample = .ok vd) (e : ε) (v : p ⊕ z)
    (c : K) (hc : ∀ d ∈ sample, ∀ g : ε → p ⊕ z → K, (∀ e, Spec.GIAt linear d e 1 (g e)) → ∑ e, g e v ^ 2 = c)
    (hne : sample ≠ []) (x : K) (hx : Spec.LanneNyberg linear 1 sample e v x) : vd e v = some x := by
  obtain ⟨xs, hxs, rfl⟩ := hx
  have hex : ∀ d ∈ sample, ∃ g : ε → p ⊕ z → K, ∀ e, Spec.GIAt linear d e 1 (g e) := by
    intro d hd
    obtain ⟨i, hi, rfl⟩ := List.mem_iff_getElem.1 hd
    obtain ⟨g, hg, -⟩ := hxs.get hi (by rw [← hxs.length_eq]; exact hi)
    exact ⟨fun e => g e 1, fun e => hg e 1 le_rfl le_rfl⟩
  classical
  let G : Draw z ε p o K → ε → p ⊕ z → K := fun d => if hd : ∃ g : ε → p ⊕ z → K, ∀ e, Spec.GIAt linear d e 1 (g e) then hd.choose else 0
  have hG : ∀ d ∈ sample, ∀ e, Spec.GIAt linear d e 1 (G d e) := by
    intro d hd e
    simp only [G]
    rw [dif_pos (hex d hd)]
    exact (hex d hd).choose_spec e
  rw [C158_computed hall hn h G hG e v]
  have hcd : ∀ d ∈ sample, ∑ e, G d e v ^ 2 = c := fun d hd => hc d hd (G d) (hG d hd)
  have hmap : (sample.map fun d => ∑ e', G d e' v ^ 2) = sample.map fun _ => c := List.map_congr_left hcd
  have hxs' : c ≠ 0 ∧ xs = sample.map fun d => G d e v ^ 2 / c := by
    have key : ∀ (ds : List (Draw z ε p o K)) (ys : List K), (∀ d ∈ ds, d ∈ sample) → List.Forall₂ (fun d y => Spec.LNShare linear 1 d e v y) ds ys →
        (ds ≠ [] → c ≠ 0) ∧ ys = ds.map fun d => G d e v ^ 2 / c := by
      intro ds ys hmem hf
      induction hf with
      | nil => exact ⟨fun h => absurd rfl h, rfl⟩
      | @cons d y ds ys hdy _ ih =>
        obtain ⟨g, h1, h2, h3⟩ := hdy
        have hg : ∀ e, g e 1 = G d e := fun e => giAt_unique (h1 e 1 le_rfl le_rfl) (hG d (hmem d (List.mem_cons_self ..)) e)
        simp only [Finset.Icc_self, Finset.sum_singleton, hg, hcd d (hmem d (List.mem_cons_self ..))] at h2 h3
        exact ⟨fun _ => h2, by rw [List.map_cons, h3, (ih fun d hd => hmem d (List.mem_cons_of_mem _ hd)).2]⟩
    obtain ⟨h1, h2⟩ := key sample xs (fun d hd => hd) hxs
    exact ⟨h1 hne, h2⟩
  obtain ⟨hc0, rfl⟩ := hxs'
  have hsum : ∑ e', (sample.map fun d => G d e' v ^ 2).sum = (sample.length : K) * c := by
    have : ∀ (ds : List (Draw z ε p o K)), ∑ e', (ds.map fun d => G d e' v ^ 2).sum = (ds.map fun d => ∑ e', G d e' v ^ 2).sum := by
      intro ds
      induction ds with
      | nil => simp
      | cons d ds ih => simp only [List.map_cons, List.sum_cons, Finset.sum_add_distrib, ih]
    rw [this, hmap, List.map_const', List.sum_replicate, nsmul_eq_mul]
  have hn0 : (sample.length : K) ≠ 0 := by
    have : sample.length ≠ 0 := by simpa using hne
    exact_mod_cast this
  have hdiv : (sample.map fun d => G d e v ^ 2 / c).sum = (sample.map fun d => G d e v ^ 2).sum / c := by
    have : ∀ (ds : List (Draw z ε p o K)), (ds.map fun d => G d e v ^ 2 / c).sum = (ds.map fun d => G d e v ^ 2).sum / c := by
      intro ds
      induction ds with
      | nil => simp
      | cons d ds ih => simp only [List.map_cons, List.sum_cons, ih, add_div]
    exact this sample
  rw [hsum, if_neg (mul_ne_zero hn0 hc0), hdiv, div_div, mul_comm c]

end

section NonVacuity
open Pydsge.Ex11

theorem ex11_succeeds (lMax kMax : Nat) : ∃ mod, Succeeded Ex11.lay Ex11.orc lMax kMax (serial kMax) mod :=
  Ex11.succeeds lMax kMax (Ex11.serial_perm lMax kMax)

/-- A linear step of the example. -/
def Ex11.next (st : Fin 1 ⊕ Fin 1 → Rat) (u : Bool → Rat) : Fin 1 ⊕ Fin 1 → Rat
  | .inl _ => 1/2 * st (.inr 0) + 2/3 * u false + u true
  | .inr _ => 1/2 * st (.inr 0) + 2/3 * u false

theorem ex11_irf {lMax kMax : Nat} {sched : Nat → List Nat} {mod : Model (Fin 1) Bool (Fin 1) (Fin 1) Rat}
    (h : Succeeded Ex11.lay Ex11.orc lMax kMax sched mod) (st : Fin 1 ⊕ Fin 1 → Rat) (e : Bool) (size : Rat) :
    Spec.Response mod st true 1 e size (Ex11.next st (Pi.single e size)) ∧
    Spec.Response mod st true 2 e size (Ex11.next (Ex11.next st (Pi.single e size)) 0) := by
  obtain ⟨c, hm⟩ := genSys_ok h.perm h.gen
  have hk : omg = mod.omg ∧ lam = mod.lam := by
    have := hm.kl
    simpa [orc] using this
  have hnext : ∀ (st : Fin 1 ⊕ Fin 1 → Rat) (u : Bool → Rat),
      Sum.elim (mod.omg *ᵥ q0Of st u) (fun i => (mod.lam *ᵥ q0Of st u) (.inl i)) = Ex11.next st u := by
    intro st u
    rw [← hk.1, ← hk.2]
    funext i
    rcases i with i | i <;>
      simp [mulVec, dotProduct, Fintype.sum_sum_type, omg, lam, q0Of, Ex11.next] <;> ring
  have e0 : shkVec [(e, size, (0 : Int))] 0 = Pi.single e size := by
    funext i; simp [shkVec, Pi.single, Function.update]
  have e1 : shkVec [(e, size, (0 : Int))] 1 = 0 := by
    funext i; simp [shkVec]
  obtain ⟨s0, a1, a2, a3⟩ := irfStep_linear h [(e, size, 0)] (sk := .bool false) (.inr rfl) true ⟨st, 0, 0, 0, false⟩ ⟨rfl, rfl⟩ 0
  obtain ⟨s1, b1, b2, b3⟩ := irfStep_linear h [(e, size, 0)] (sk := .bool false) (.inr rfl) true s0 a2 1
  rw [hnext] at a3 b3
  rw [e0] at a3
  rw [e1, a3] at b3
  exact ⟨⟨[s0], s0, by simp [irfs, irfRun, a1], le_rfl, rfl, a3⟩, ⟨[s0, s1], s1, by simp [irfs, irfRun, a1, b1], by omega, rfl, b3⟩⟩

/-- The responses of the example in the first two periods. -/
def Ex11.gi (u : Bool → Rat) (e : Bool) (t : Nat) : Fin 1 ⊕ Fin 1 → Rat :=
  if t = 1 then Ex11.next 0 (Pi.single e (u e)) else Ex11.next (Ex11.next 0 (Pi.single e (u e))) 0

theorem ex11_gi {lMax kMax : Nat} {sched : Nat → List Nat} {mod : Model (Fin 1) Bool (Fin 1) (Fin 1) Rat}
    (h : Succeeded Ex11.lay Ex11.orc lMax kMax sched mod) (u : Bool → Rat) (e : Bool) (t : Nat) (h1 : 1 ≤ t) (h2 : t ≤ 2) :
    Spec.GIAt true ⟨mod, 0, u⟩ e t (Ex11.gi u e t) := by
  have hz : Ex11.next 0 (Pi.single e 0) = 0 := by
    funext i; rcases i with i | i <;> simp [Ex11.next]
  have hz' : Ex11.next 0 0 = 0 := by
    funext i; rcases i with i | i <;> simp [Ex11.next]
  obtain ⟨a1, a2⟩ := ex11_irf h 0 e (u e)
  obtain ⟨b1, b2⟩ := ex11_irf h 0 e 0
  rw [hz] at b1 b2
  rw [hz'] at b2
  rcases (by omega : t = 1 ∨ t = 2) with rfl | rfl
  · exact ⟨_, _, a1, b1, by simp [Ex11.gi]⟩
  · exact ⟨_, _, a2, b2, by simp [Ex11.gi]⟩

theorem ex11_gfevd {lMax kMax : Nat} {sched : Nat → List Nat} {mod : Model (Fin 1) Bool (Fin 1) (Fin 1) Rat}
    (h : Succeeded Ex11.lay Ex11.orc lMax kMax sched mod) (us : List (Bool → Rat)) (t : Nat) (h1 : 1 ≤ t) (h2 : t ≤ 2) :
    ∃ vd, gfevd [false, true] true t (us.map fun u => ⟨mod, 0, u⟩) = .ok vd := by
  have hsq : ∀ u e, ∃ s, sqDiff ⟨mod, 0, u⟩ true t e = .ok s := by
    intro u e
    obtain ⟨a, b, ha, hb, -⟩ := ex11_gi h u e t h1 h2
    rw [← lastIrf_iff] at ha hb
    exact ⟨_, by unfold sqDiff; rw [ha, hb]⟩
  have hadd : ∀ u g, ∃ g', addShocks ⟨mod, 0, u⟩ true t [false, true] g = .ok g' := by
    intro u g
    obtain ⟨s1, h1⟩ := hsq u false
    obtain ⟨s2, h2⟩ := hsq u true
    exact ⟨_, by simp only [addShocks, h1, h2]; rfl⟩
  have hall : ∀ (us : List (Bool → Rat)) g, ∃ g', addDraws [false, true] true t (us.map fun u => (⟨mod, 0, u⟩ : Draw _ _ _ _ _)) g = .ok g' := by
    intro us
    induction us with
    | nil => intro g; exact ⟨g, rfl⟩
    | cons u us ih =>
      intro g
      obtain ⟨g1, h1⟩ := hadd u g
      obtain ⟨g2, h2⟩ := ih g1
      exact ⟨g2, by simp only [List.map_cons, addDraws, h1, h2]⟩
  obtain ⟨g, hg⟩ := hall us 0
  exact ⟨_, by unfold gfevd; rw [hg]⟩

/-- **C158** refuted for a horizon of two periods: a shock that moves the interest rate on impact only has a share of zero, while it accounts
for 9/14 of the squared responses of the two periods. -/
theorem C158_cumulated_refuted : ∃ mod, Succeeded Ex11.lay Ex11.orc 3 1 (serial 1) mod ∧
    ∃ vd, gfevd [false, true] true 2 [⟨mod, 0, fun _ => 1⟩] = .ok vd ∧ vd true (.inl 0) = some 0 ∧
      Spec.LanneNyberg true 2 [⟨mod, 0, fun _ => 1⟩] true (.inl 0) (9/14) := by
  obtain ⟨mod, h⟩ := ex11_succeeds 3 1
  obtain ⟨vd, hvd⟩ := ex11_gfevd h [fun _ => 1] 2 (by omega) le_rfl
  refine ⟨mod, h, vd, hvd, ?_, [9/14], .cons ⟨Ex11.gi fun _ => 1, fun e' t h1 h2 => ex11_gi h _ e' t h1 h2, ?_, ?_⟩ .nil, by simp⟩
  · rw [C158_computed (by simp) (by simp) hvd (fun d e => Ex11.gi d.resid e 2) (by
      intro d hd e
      simp only [List.map_cons, List.map_nil, List.mem_singleton] at hd
      subst hd
      exact ex11_gi h _ e 2 (by omega) le_rfl)]
    simp [Ex11.gi, Ex11.next]
  · simp [Ex11.gi, Ex11.next, Finset.sum_Icc_succ_top]
    norm_num
  · simp [Ex11.gi, Ex11.next, Finset.sum_Icc_succ_top]
    norm_num

/-- **C158** refuted for two draws: the ratio of sums is not the average of the ratios. -/
theorem C158_average_refuted : ∃ mod, Succeeded Ex11.lay Ex11.orc 3 1 (serial 1) mod ∧
    ∃ vd, gfevd [false, true] true 1 [⟨mod, 0, fun e => if e then 1 else 3/2⟩, ⟨mod, 0, fun e => if e then 0 else 3⟩] = .ok vd ∧
      vd false (.inl 0) = some (5/6) ∧
      Spec.LanneNyberg true 1 [⟨mod, 0, fun e => if e then 1 else 3/2⟩, ⟨mod, 0, fun e => if e then 0 else 3⟩] false (.inl 0) (3/4) := by
  obtain ⟨mod, h⟩ := ex11_succeeds 3 1
  obtain ⟨vd, hvd⟩ := ex11_gfevd h [fun e => if e then 1 else 3/2, fun e => if e then 0 else 3] 1 le_rfl (by omega)
  refine ⟨mod, h, vd, hvd, ?_, [1/2, 1],
    .cons ⟨Ex11.gi _, fun e' t h1 h2 => ex11_gi h _ e' t h1 (by omega), ?_, ?_⟩
    (.cons ⟨Ex11.gi _, fun e' t h1 h2 => ex11_gi h _ e' t h1 (by omega), ?_, ?_⟩ .nil), by norm_num⟩
  · rw [C158_computed (by simp) (by simp) hvd (fun d e => Ex11.gi d.resid e 1) (by
      intro d hd e
      simp only [List.map_cons, List.map_nil, List.mem_cons, List.not_mem_nil, or_false] at hd
      rcases hd with rfl | rfl
      · exact ex11_gi h _ e 1 le_rfl (by omega)
      · exact ex11_gi h _ e 1 le_rfl (by omega))]
    simp [Ex11.gi, Ex11.next]
    norm_num
  all_goals
    simp [Ex11.gi, Ex11.next]
    try norm_num

/-- The hypotheses of the partial theorem are met by one draw of two shocks. -/
theorem C158_hypotheses_met : ∃ mod, Succeeded Ex11.lay Ex11.orc 3 1 (serial 1) mod ∧
    ∃ vd, gfevd [false, true] true 1 [⟨mod, 0, fun e => if e then 1 else 3/2⟩] = .ok vd ∧
      Spec.LanneNyberg true 1 [⟨mod, 0, fun e => if e then 1 else 3/2⟩] false (.inl 0) (1/2) ∧ vd false (.inl 0) = some (1/2) := by
  obtain ⟨mod, h⟩ := ex11_succeeds 3 1
  obtain ⟨vd, hvd⟩ := ex11_gfevd h [fun e => if e then 1 else 3/2] 1 le_rfl (by omega)
  have hln : Spec.LanneNyberg true 1 [⟨mod, 0, fun e => if e then 1 else 3/2⟩] false (.inl 0) (1/2) := by
    refine ⟨[1/2], .cons ⟨Ex11.gi _, fun e' t h1 h2 => ex11_gi h _ e' t h1 (by omega), ?_, ?_⟩ .nil, by simp⟩
    all_goals
      simp [Ex11.gi, Ex11.next]
      try norm_num
  refine ⟨mod, h, vd, hvd, hln, C158_lanne_nyberg_partial (by simp) (by simp) hvd false (.inl 0) 2 ?_ (by simp) _ hln⟩
  intro d hd g hg
  simp only [List.map_cons, List.map_nil, List.mem_singleton] at hd
  subst hd
  have : ∀ e, g e = Ex11.gi (fun e => if e then 1 else 3/2) e 1 := fun e => giAt_unique (hg e) (ex11_gi h _ e 1 le_rfl (by omega))
  simp [this, Ex11.gi, Ex11.next]
  norm_num

end NonVacuity
end Pydsge
