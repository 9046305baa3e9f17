import Verif.Props.Engine
import Verif.Lemmas.Irfs
import Verif.Examples.Ex1Low

/-!
# C09, C16, C18, C66, C67: impulse responses
-/

set_option autoImplicit false
set_option linter.unusedSectionVars false
set_option linter.unusedSimpArgs false

namespace Pydsge

open Matrix Pydsge.Engine Pydsge.Spec Pydsge.Tools Pydsge.GenSys

section Shocks
variable {ε K : Type} [DecidableEq ε] [Field K] [LinearOrder K]

/-- What a list of shocks stands for: in period `t` shock `e` has the sum of the sizes given for `(e, t)`. -/
def shockSum (sl : List (ShockSpec ε K)) (t : Nat) (e : ε) : K :=
  (sl.map (fun s => if s.1 = e ∧ s.2.2 = (t : Int) then s.2.1 else 0)).sum

theorem shkVec_append (a b : List (ShockSpec ε K)) (t : Nat) :
    shkVec (a ++ b) t = b.foldl (fun v s => if s.2.2 = (t : Int) then Function.update v s.1 s.2.1 else v) (shkVec a t) := by
  simp [shkVec, List.foldl_append]

/-- The shocks `u` of period `t` that a list of shocks gives: the size in the last entry for the shock and the period, and zero without an entry. -/
def Spec.ShocksAt (sl : List (ShockSpec ε K)) (t : Nat) (u : ε → K) : Prop :=
  ∀ e, ((∀ s ∈ sl, ¬ (s.1 = e ∧ s.2.2 = (t : Int))) → u e = 0) ∧
    ∀ a s b, sl = a ++ s :: b → s.1 = e → s.2.2 = (t : Int) → (∀ s' ∈ b, ¬ (s'.1 = e ∧ s'.2.2 = (t : Int))) → u e = s.2.1

theorem shkVec_skip (sl : List (ShockSpec ε K)) (t : Nat) (e : ε) (h : ∀ s ∈ sl, ¬ (s.1 = e ∧ s.2.2 = (t : Int))) (v : ε → K) :
    sl.foldl (fun v s => if s.2.2 = (t : Int) then Function.update v s.1 s.2.1 else v) v e = v e := by
  induction sl generalizing v with
  | nil => rfl
  | cons s sl ih =>
    rw [List.foldl_cons, ih (fun s' hs' => h s' (List.mem_cons_of_mem _ hs'))]
    have h1 := h s (List.mem_cons_self ..)
    split_ifs with h2
    · rw [Function.update_of_ne]
      rintro rfl
      exact h1 ⟨rfl, h2⟩
    · rfl

theorem shocksAt_shkVec (sl : List (ShockSpec ε K)) (t : Nat) : Spec.ShocksAt sl t (shkVec sl t) := by
  intro e
  refine ⟨fun h => shkVec_skip sl t e h 0, ?_⟩
  rintro a s b rfl rfl h2 h3
  rw [shkVec_append, List.foldl_cons, shkVec_skip b t s.1 h3, if_pos h2, Function.update_self]

theorem shocksAt_iff (sl : List (ShockSpec ε K)) (t : Nat) (u : ε → K) : Spec.ShocksAt sl t u ↔ u = shkVec sl t := by
  refine ⟨fun h => funext fun e => ?_, fun h => h ▸ shocksAt_shkVec sl t⟩
  obtain ⟨h1, h2⟩ := h e
  obtain ⟨g1, g2⟩ := shocksAt_shkVec sl t e
  by_cases hn : ∀ s ∈ sl, ¬ (s.1 = e ∧ s.2.2 = (t : Int))
  · rw [h1 hn, g1 hn]
  · have key : ∀ l : List (ShockSpec ε K), (¬ ∀ s ∈ l, ¬ (s.1 = e ∧ s.2.2 = (t : Int))) →
        ∃ a s b, l = a ++ s :: b ∧ s.1 = e ∧ s.2.2 = (t : Int) ∧ ∀ s' ∈ b, ¬ (s'.1 = e ∧ s'.2.2 = (t : Int)) := by
      intro l
      induction l with
      | nil => intro h; exact absurd (by simp) h
      | cons s l ih =>
        intro h
        by_cases hl : ∀ s ∈ l, ¬ (s.1 = e ∧ s.2.2 = (t : Int))
        · by_cases hs : s.1 = e ∧ s.2.2 = (t : Int)
          · exact ⟨[], s, l, rfl, hs.1, hs.2, hl⟩
          · exact absurd (fun s' hs' => by
              rcases List.mem_cons.1 hs' with rfl | h'
              · exact hs
              · exact hl s' h') h
        · obtain ⟨a, s', b, rfl, h2, h3, h4⟩ := ih hl
          exact ⟨s :: a, s', b, rfl, h2, h3, h4⟩
    obtain ⟨a, s, b, hsl, hs1, hs2, hb⟩ := key sl hn
    rw [h2 a s b hsl hs1 hs2 hb, g2 a s b hsl hs1 hs2 hb]

theorem shockSum_append (a b : List (ShockSpec ε K)) (t : Nat) (e : ε) : shockSum (a ++ b) t e = shockSum a t e + shockSum b t e := by
  simp [shockSum]

theorem shockSum_absent {sl : List (ShockSpec ε K)} {t : Nat} {e : ε} (h : ∀ s ∈ sl, ¬ (s.1 = e ∧ s.2.2 = (t : Int))) :
    shockSum sl t e = 0 := by
  induction sl with
  | nil => rfl
  | cons s sl ih =>
    have h1 := h s (by simp)
    have h2 := ih (fun x hx => h x (by simp [hx]))
    unfold shockSum at h2 ⊢
    rw [List.map_cons, List.sum_cons, h2, if_neg h1, add_zero]

/-- **C66** (holds if no two entries have the same name and period): the entries of the shock list add up. -/
theorem C66_shocks_add_up_partial (sl : List (ShockSpec ε K)) (hn : (sl.map (fun s => (s.1, s.2.2))).Nodup) (t : Nat) (e : ε) :
    shkVec sl t e = shockSum sl t e := by
  induction sl using List.reverseRecOn with
  | nil => rfl
  | append_singleton sl s ih =>
    rw [List.map_append, List.nodup_append] at hn
    obtain ⟨h1, _, h3⟩ := hn
    have hi := ih h1
    rw [shkVec_append, shockSum_append]
    simp only [List.foldl_cons, List.foldl_nil, shockSum, List.map_cons, List.map_nil, List.sum_cons, List.sum_nil, add_zero]
    by_cases ht : s.2.2 = (t : Int)
    · rw [if_pos ht]
      by_cases he : s.1 = e
      · subst he
        rw [Function.update_self, if_pos ⟨rfl, ht⟩]
        have : shockSum sl t s.1 = 0 := by
          apply shockSum_absent
          intro x hx hc
          refine h3 (x.1, x.2.2) (List.mem_map.2 ⟨x, hx, rfl⟩) (s.1, s.2.2) (by simp) ?_
          rw [hc.1, hc.2, ht]
        unfold shockSum at this
        rw [this, zero_add]
      · rw [Function.update_of_ne (Ne.symm he), if_neg (fun h => he h.1), add_zero, hi]
        rfl
    · rw [if_neg ht, if_neg (fun h => ht h.2), add_zero, hi]
      rfl

/-- **C66** refuted: two shocks of size one to the same variable in the same period act as one shock of size one. -/
theorem C66_shocks_add_up_refuted :
    shkVec ([((0 : Fin 1), (1 : Rat), 0), (0, 1, 0)] : List (ShockSpec (Fin 1) Rat)) 0 0 = 1 ∧
    shockSum ([((0 : Fin 1), (1 : Rat), 0), (0, 1, 0)] : List (ShockSpec (Fin 1) Rat)) 0 0 = 2 := by
  constructor
  · simp [shkVec]
  · simp [shockSum]; norm_num

/-- Scaling all sizes of a shock list scales the shock vector of every period. -/
theorem C09_shocks_scale (a : K) (sl : List (ShockSpec ε K)) (t : Nat) :
    shkVec (sl.map (fun s => (s.1, a * s.2.1, s.2.2))) t = a • shkVec sl t := by
  induction sl using List.reverseRecOn with
  | nil => funext e; simp [shkVec]
  | append_singleton sl s ih =>
    rw [List.map_append, shkVec_append, shkVec_append, ih]
    simp only [List.map_cons, List.map_nil, List.foldl_cons, List.foldl_nil]
    by_cases ht : s.2.2 = (t : Int)
    · rw [if_pos ht, if_pos ht]
      funext e
      by_cases he : e = s.1
      · subst he; simp
      · simp [Function.update_of_ne he]
    · rw [if_neg ht, if_neg ht]

/-- Joining two shock lists adds the shock vectors of every period, if no shock is given twice for the same period. -/
theorem C09_shocks_add (a b : List (ShockSpec ε K)) (hn : ((a ++ b).map (fun s => (s.1, s.2.2))).Nodup) (t : Nat) :
    shkVec (a ++ b) t = shkVec a t + shkVec b t := by
  have hn' := hn
  rw [List.map_append, List.nodup_append] at hn'
  funext e
  rw [C66_shocks_add_up_partial _ hn, shockSum_append, ← C66_shocks_add_up_partial _ hn'.1,
    ← C66_shocks_add_up_partial _ hn'.2.1]
  rfl

example : (([((0 : Fin 2), (1 : Rat), 0), (0, 1, 1), (1, 3, 0)] : List (ShockSpec (Fin 2) Rat)).map (fun s => (s.1, s.2.2))).Nodup := by
  decide

end Shocks

section Model
variable {E ν ε o K : Type} [Fintype E] [Fintype ν] [Fintype ε] [Fintype o]
  [DecidableEq E] [DecidableEq ν] [DecidableEq ε] [Field K] [LinearOrder K] [IsStrictOrderedRing K]
variable {H z p : Type} [DecidableEq H] [Fintype H] [Fintype z] [Fintype p] [DecidableEq z] [DecidableEq p]
variable {tol : K} {m : Input E ν ε o K} [DecidablePred (inall tol m)] {lay : Layout tol m H z p}
  {orc : Oracle (Rows E H ε) (z ⊕ ε) p K} {lMax kMax : Nat} {sched : Nat → List Nat} {mod : Model z ε p o K}

/-- One linear step of `irfs`, whatever `force_init_equil` is. -/
theorem irfStep_linear (h : Succeeded lay orc lMax kMax sched mod) (sl : List (ShockSpec ε K)) {sk : SetK}
    (hsk : sk = .none ∨ sk = .bool false) (force : Bool) (s : IrfState z p K) (h0 : s.l = 0 ∧ s.k = 0) (t : Nat) :
    ∃ s', irfStep mod ⟨sl, sk, force, true⟩ s t = .ok s' ∧ (s'.l = 0 ∧ s'.k = 0) ∧
      s'.state = Sum.elim (mod.omg *ᵥ q0Of s.state (shkVec sl t)) (fun i => (mod.lam *ᵥ q0Of s.state (shkVec sl t)) (.inl i)) := by
  obtain ⟨c, hm⟩ := genSys_ok h.perm h.gen
  have := h.states
  have key : ∀ sk', tFunc mod s.state (shkVec sl t) sk' true =
      .ok ⟨Sum.elim (mod.omg *ᵥ q0Of s.state (shkVec sl t)) (fun i => (mod.lam *ᵥ q0Of s.state (shkVec sl t)) (.inl i)), 0, 0, 0⟩ := by
    intro sk'
    obtain ⟨⟨r, hr, hr2⟩, _⟩ := C08_linear_solution_everywhere h s.state (shkVec sl t) (Nat.zero_le lMax)
    rw [tFunc_linear] at hr ⊢
    have := tFunc_pair hm s.state (shkVec sl t) (Nat.zero_le lMax) (Nat.zero_le kMax)
    simp only [Nat.cast_zero] at this
    rw [this, Except.ok.injEq] at hr
    rw [this, ← hr2, ← hr]
  have hlk := hm.lks
  unfold irfStep
  simp only [key]
  by_cases hf : (force && !anyNonzero (shkVec sl t) && anyPeriod sl) = true
  · rw [if_pos hf]
    simp only [h0.1, h0.2, continued]
    have hlong : tooLong mod.lks (if (0 : Nat) ≠ 0 then .pair (((0 : Nat) : Int) - 1) ((0 : Nat) : Int)
        else .pair 0 (max (((0 : Nat) : Int) - 1) 0)) = false := by
      simp [tooLong]
    simp only [hlong, Bool.false_eq_true, if_false]
    exact ⟨_, rfl, ⟨rfl, rfl⟩, rfl⟩
  · rw [if_neg hf]
    rcases hsk with hsk | hsk <;> subst hsk <;>
    exact ⟨_, rfl, ⟨rfl, rfl⟩, rfl⟩

/-- **C09**: with `linear=True`, `irfs` never fails and superposition holds at every horizon: if the shock vectors of `sc`
are in every period `a` times those of `sa` plus `b` times those of `sb`, and so is the initial state, then the response is
`a` times the one response plus `b` times the other. -/
theorem C09_superposition (h : Succeeded lay orc lMax kMax sched mod) {sk : SetK} (hsk : sk = .none ∨ sk = .bool false)
    (fa fb fc : Bool) (a b : K) (sa sb sc : List (ShockSpec ε K)) (T : Nat)
    (hsh : ∀ t < T, shkVec sc t = a • shkVec sa t + b • shkVec sb t) (xa xb : p ⊕ z → K) :
    ∃ A B C, irfs mod ⟨sa, sk, fa, true⟩ xa T = .ok A ∧ irfs mod ⟨sb, sk, fb, true⟩ xb T = .ok B ∧
      irfs mod ⟨sc, sk, fc, true⟩ (a • xa + b • xb) T = .ok C ∧ A.length = T ∧ B.length = T ∧
      C.map (·.state) = List.zipWith (fun u v => a • u + b • v) (A.map (·.state)) (B.map (·.state)) := by
  have main : ∀ n t0 (sA sB sC : IrfState z p K), t0 + n = T → (sA.l = 0 ∧ sA.k = 0) → (sB.l = 0 ∧ sB.k = 0) →
      (sC.l = 0 ∧ sC.k = 0) → sC.state = a • sA.state + b • sB.state →
      ∃ A B C, irfRun mod ⟨sa, sk, fa, true⟩ t0 sA n = .ok A ∧ irfRun mod ⟨sb, sk, fb, true⟩ t0 sB n = .ok B ∧
        irfRun mod ⟨sc, sk, fc, true⟩ t0 sC n = .ok C ∧ A.length = n ∧ B.length = n ∧
        C.map (·.state) = List.zipWith (fun u v => a • u + b • v) (A.map (·.state)) (B.map (·.state)) := by
    intro n
    induction n with
    | zero => intro t0 sA sB sC _ _ _ _ _; exact ⟨[], [], [], rfl, rfl, rfl, rfl, rfl, rfl⟩
    | succ n ih =>
      intro t0 sA sB sC ht hA hB hC he
      obtain ⟨sA', a1, a2, a3⟩ := irfStep_linear h sa hsk fa sA hA t0
      obtain ⟨sB', b1, b2, b3⟩ := irfStep_linear h sb hsk fb sB hB t0
      obtain ⟨sC', c1, c2, c3⟩ := irfStep_linear h sc hsk fc sC hC t0
      have hq : q0Of sC.state (shkVec sc t0) = a • q0Of sA.state (shkVec sa t0) + b • q0Of sB.state (shkVec sb t0) := by
        rw [hsh t0 (by omega), he]
        funext j
        rcases j with j | j <;> simp [q0Of]
      have he' : sC'.state = a • sA'.state + b • sB'.state := by
        rw [a3, b3, c3, hq]
        simp only [mulVec_add, mulVec_smul]
        funext j
        rcases j with j | j <;> simp
      obtain ⟨A, B, C, d1, d2, d3, d4, d5, d6⟩ := ih (t0 + 1) sA' sB' sC' (by omega) a2 b2 c2 he'
      refine ⟨sA' :: A, sB' :: B, sC' :: C, ?_, ?_, ?_, by simp [d4], by simp [d5], ?_⟩
      · simp only [irfRun, a1, d1]
      · simp only [irfRun, b1, d2]
      · simp only [irfRun, c1, d3]
      · simp only [List.map_cons, List.zipWith_cons_cons, d6, he']
  exact main T 0 _ _ _ (by omega) ⟨rfl, rfl⟩ ⟨rfl, rfl⟩ ⟨rfl, rfl⟩ rfl

/-- The spell that an imposed `set_k` stands for: a pair of non-negative integers, a positive integer `k` for `(0,k)`, or
`True` for `(0,1)`. -/
def spellOf : SetK → Option (Nat × Nat)
  | .pair l k => if 0 ≤ l ∧ 0 ≤ k then some (l.toNat, k.toNat) else none
  | .int n => if 0 < n then some (0, n.toNat) else none
  | .bool b => if b then some (0, 1) else none
  | .none => none

theorem setKEff_elapsed {sk : SetK} {l k : Nat} (h : spellOf sk = some (l, k)) (t : Nat) :
    setKEff sk t = .pair ((elapsed l k t).1 : Int) ((elapsed l k t).2 : Int) := by
  have main : ∀ l k : Nat, (if (l : Int) - t ≥ 0 then SetK.pair (l - t) k else .pair 0 (max ((k : Int) + l - t) 0)) =
      .pair ((elapsed l k t).1 : Int) ((elapsed l k t).2 : Int) := by
    intro l k
    unfold elapsed
    by_cases hl : t ≤ l
    · rw [if_pos (by omega), if_pos hl]
      simp only [SetK.pair.injEq, and_true]; omega
    · rw [if_neg (by omega), if_neg hl]
      simp only [SetK.pair.injEq]; omega
  have main0 : ∀ k : Nat, SetK.pair 0 (max ((k : Int) - t) 0) =
      .pair ((elapsed 0 k t).1 : Int) ((elapsed 0 k t).2 : Int) := by
    intro k
    unfold elapsed
    by_cases hl : t ≤ 0
    · rw [if_pos hl]; simp only [SetK.pair.injEq]; omega
    · rw [if_neg hl]; simp only [SetK.pair.injEq]; omega
  cases sk with
  | none => cases h
  | bool b =>
    cases b with
    | false => simp [spellOf] at h
    | true =>
      simp only [spellOf, if_true, Option.some.injEq, Prod.mk.injEq] at h
      obtain ⟨h1, h2⟩ := h
      subst h1 h2
      simp only [setKEff, if_true]
      exact main0 1
  | int n =>
    simp only [spellOf] at h
    split_ifs at h with hn
    simp only [Option.some.injEq, Prod.mk.injEq] at h
    obtain ⟨h1, h2⟩ := h
    subst h1 h2
    simp only [setKEff, ne_eq, hn.ne', not_false_eq_true, if_true]
    rw [← main0, Int.toNat_of_nonneg hn.le]
  | pair a b =>
    simp only [spellOf] at h
    split_ifs at h with hn
    simp only [Option.some.injEq, Prod.mk.injEq] at h
    obtain ⟨h1, h2⟩ := h
    subst h1 h2
    rw [← main]
    simp only [setKEff, Int.toNat_of_nonneg hn.1, Int.toNat_of_nonneg hn.2]

theorem elapsed_le {l k lMax kMax : Nat} (hl : l ≤ lMax) (hk : k ≤ kMax) (t : Nat) :
    (elapsed l k t).1 ≤ lMax ∧ (elapsed l k t).2 ≤ kMax := by
  unfold elapsed
  split_ifs <;> dsimp only <;> omega

/-- `t_func` with a spell inside the tables always succeeds, and reports that spell. -/
theorem tFunc_imposed (h : Succeeded lay orc lMax kMax sched mod) (st : p ⊕ z → K) (e : ε → K) (lin : Bool) {l k : Nat}
    (hl : l ≤ lMax) (hk : k ≤ kMax) :
    ∃ r, tFunc mod st e (.pair (l : Int) (k : Int)) lin = .ok r ∧ (lin = false → r.l = l ∧ r.k = k) ∧
      (lin = true → r.l = 0 ∧ r.k = 0) := by
  obtain ⟨c, hm⟩ := genSys_ok h.perm h.gen
  have := h.states
  cases lin with
  | true =>
    exact ⟨_, tFunc_pair hm st e (Nat.zero_le lMax) (Nat.zero_le kMax), by simp, fun _ => ⟨rfl, rfl⟩⟩
  | false => exact ⟨_, tFunc_pair hm st e hl hk, fun _ => ⟨rfl, rfl⟩, by simp⟩

/-- `t_func` without an imposed spell always succeeds if `k_max ≥ 1`. -/
theorem tFunc_endo (h : Succeeded lay orc lMax kMax sched mod) (hk1 : 1 ≤ kMax) (st : p ⊕ z → K) (e : ε → K) (lin : Bool) :
    ∃ r, tFunc mod st e .none lin = .ok r ∧ r.l ≤ lMax ∧ r.k ≤ kMax := by
  cases lin with
  | true =>
    obtain ⟨r, h1, _, h2⟩ := tFunc_imposed h st e true (Nat.zero_le lMax) (Nat.zero_le kMax)
    obtain ⟨h2, h3⟩ := h2 rfl
    exact ⟨r, h1, by omega, by omega⟩
  | false =>
    obtain ⟨c, hm⟩ := genSys_ok h.perm h.gen
    obtain ⟨M', hS⟩ := hm.eng
    have := h.states
    obtain ⟨l, k, flag, hf, hl, hk, hcase⟩ := findLk_cases (xbar := mod.xbar) (checkCnst_reads hS (q0Of st e)) (by omega) (by omega)
    exact ⟨_, tFunc_find hm st e hf (by omega) (by omega), Nat.le_of_lt_succ hl, Nat.le_of_lt_succ hk⟩

/-- **C16**: `irfs` with an imposed spell `(l,k)` (and the default for `force_init_equil`: false unless `(l,k) = (0,0)`). If the
spell is inside the tables, then `irfs` succeeds for every horizon, and in period `i` the state is the one `t_func` returns
when the spell that has elapsed by `i` periods is imposed; otherwise it raises `IndexError`. -/
theorem C16_imposed_spell_elapses (h : Succeeded lay orc lMax kMax sched mod) {sk : SetK} {l k : Nat}
    (hsk : spellOf sk = some (l, k)) (sl : List (ShockSpec ε K)) (linear : Bool) {force : Bool}
    (hforce : force = false ∨ (l = 0 ∧ k = 0 ∧ 1 ≤ kMax)) (st : p ⊕ z → K) (T : Nat) :
    (l ≤ lMax ∧ k ≤ kMax → ∃ xs, irfs mod ⟨sl, sk, force, linear⟩ st T = .ok xs ∧ xs.length = T ∧
      ∀ i s', xs[i]? = some s' → ∃ r,
        tFunc mod (if i = 0 then st else (xs[i-1]?.map (·.state)).getD st) (shkVec sl i)
          (.pair ((elapsed l k i).1 : Int) ((elapsed l k i).2 : Int)) linear = .ok r ∧
        s'.state = r.state ∧ (linear = false → (s'.l, s'.k) = elapsed l k i)) ∧
    (¬ (l ≤ lMax ∧ k ≤ kMax) → 0 < T → irfs mod ⟨sl, sk, force, linear⟩ st T = .error .indexError) := by
  obtain ⟨c, hm⟩ := genSys_ok h.perm h.gen
  have hlks := hm.lks
  have := h.states
  constructor
  · rintro ⟨hl, hk⟩
    -- one step
    have step : ∀ t (s : IrfState z p K), (force = true → s.l = 0 ∧ s.k = 0) →
        ∃ s' r, irfStep mod ⟨sl, sk, force, linear⟩ s t = .ok s' ∧ (force = true → s'.l = 0 ∧ s'.k = 0) ∧
          tFunc mod s.state (shkVec sl t) (.pair ((elapsed l k t).1 : Int) ((elapsed l k t).2 : Int)) linear = .ok r ∧
          s'.state = r.state ∧ (linear = false → (s'.l, s'.k) = elapsed l k t) := by
      intro t s hs
      obtain ⟨e1, e2⟩ := elapsed_le hl hk t
      obtain ⟨r, hr, hr1, hr2⟩ := tFunc_imposed h s.state (shkVec sl t) linear e1 e2
      have hlong : tooLong mod.lks (.pair ((elapsed l k t).1 : Int) ((elapsed l k t).2 : Int)) = false := by
        simp only [tooLong, hlks, decide_eq_false_iff_not]; omega
      have hz : force = true → r.l = 0 ∧ r.k = 0 := by
        intro hf
        cases linear with
        | true => exact hr2 rfl
        | false =>
          obtain ⟨h1, h2⟩ := hr1 rfl
          rcases hforce with h0 | ⟨h0, h0', _⟩
          · rw [h0] at hf; cases hf
          · subst h0 h0'
            rw [h1, h2]
            unfold elapsed
            split_ifs <;> dsimp only <;> omega
      unfold irfStep
      simp only
      by_cases hf : (force && !anyNonzero (shkVec sl t) && anyPeriod sl) = true
      · have hft : force = true := by
          simp only [Bool.and_eq_true] at hf; exact hf.1.1
        rcases hforce with h0 | ⟨h0, h0', hk1⟩
        · rw [h0] at hft; cases hft
        · subst h0 h0'
          obtain ⟨en, hen, _⟩ := tFunc_endo h hk1 s.state (shkVec sl t) linear
          have hc : continued s.l s.k = .pair ((elapsed 0 0 t).1 : Int) ((elapsed 0 0 t).2 : Int) := by
            rw [(hs hft).1, (hs hft).2]
            unfold elapsed continued
            rw [if_neg (by simp)]
            split_ifs <;> simp
          rw [if_pos hf, hen]
          simp only [hc, hlong, hr]
          exact ⟨_, r, rfl, hz, rfl, rfl, fun hlin => by rw [(hr1 hlin).1, (hr1 hlin).2]⟩
      · rw [if_neg hf]
        simp only [setKEff_elapsed hsk, hlong, hr]
        exact ⟨_, r, rfl, hz, rfl, rfl, fun hlin => by rw [(hr1 hlin).1, (hr1 hlin).2]⟩
    obtain ⟨xs, hxs⟩ := irfRun_exists (m := mod) (a := ⟨sl, sk, force, linear⟩)
      (fun _ (s : IrfState z p K) => force = true → s.l = 0 ∧ s.k = 0)
      (fun t s hs => by
        obtain ⟨s', r, h1, h2, _⟩ := step t s hs
        exact ⟨s', h1, h2⟩) T 0 ⟨st, 0, 0, 0, false⟩ (fun _ => ⟨rfl, rfl⟩)
    obtain ⟨hlen, hst⟩ := irfRun_steps hxs
    have hinv : ∀ (i : Nat) (s : IrfState z p K), ((⟨st, 0, 0, 0, false⟩ : IrfState z p K) :: xs)[i]? = some s → (force = true → s.l = 0 ∧ s.k = 0) := by
      intro i
      induction i with
      | zero =>
        intro s hs
        simp only [List.getElem?_cons_zero, Option.some.injEq] at hs
        subst hs
        exact fun _ => ⟨rfl, rfl⟩
      | succ i ih =>
        intro s' hs'
        simp only [List.getElem?_cons_succ] at hs'
        have hi : i < xs.length := (List.getElem?_eq_some_iff.1 hs').1
        obtain ⟨s, hs⟩ : ∃ s, ((⟨st, 0, 0, 0, false⟩ : IrfState z p K) :: xs)[i]? = some s :=
          ⟨_, List.getElem?_eq_getElem (by simp; omega)⟩
        have h1 := hst i s s' hs hs'
        obtain ⟨s2, r, h2, h3, _⟩ := step (0 + i) s (ih s hs)
        rw [h1, Except.ok.injEq] at h2
        rw [h2]; exact h3
    refine ⟨xs, hxs, hlen, ?_⟩
    intro i s' hs'
    have hi : i < xs.length := (List.getElem?_eq_some_iff.1 hs').1
    obtain ⟨s, hs⟩ : ∃ s, ((⟨st, 0, 0, 0, false⟩ : IrfState z p K) :: xs)[i]? = some s :=
      ⟨_, List.getElem?_eq_getElem (by simp; omega)⟩
    have hprev : (if i = 0 then st else (xs[i-1]?.map (·.state)).getD st) = s.state := by
      cases i with
      | zero =>
        simp only [List.getElem?_cons_zero, Option.some.injEq] at hs
        subst hs
        rfl
      | succ i =>
        simp only [List.getElem?_cons_succ] at hs
        simp [hs]
    rw [hprev]
    have h1 := hst i s s' hs hs'
    rw [Nat.zero_add] at h1
    obtain ⟨s2, r, h2, _, h3, h4, h5⟩ := step i s (hinv i s hs)
    rw [h1, Except.ok.injEq] at h2
    subst h2
    exact ⟨r, h3, h4, h5⟩
  · intro hlk hT
    have hf : force = false := by
      rcases hforce with h0 | ⟨h0, h0', _⟩
      · exact h0
      · exfalso; apply hlk; omega
    subst hf
    obtain ⟨n, rfl⟩ : ∃ n, T = n + 1 := ⟨T - 1, by omega⟩
    have hlong : tooLong mod.lks (setKEff sk 0) = true := by
      rw [setKEff_elapsed hsk, elapsed_zero]
      simp only [tooLong, hlks, decide_eq_true_eq]; omega
    simp only [irfs, irfRun, irfStep, Bool.false_and, Bool.false_eq_true, if_false, hlong, if_true]

/-- The default of `force_init_equil` for an imposed spell. -/
theorem forceDefault_spell {sk : SetK} {l k : Nat} (hsk : spellOf sk = some (l, k)) :
    forceDefault none sk = false ∨ (l = 0 ∧ k = 0) := by
  cases sk with
  | none => cases hsk
  | bool b => cases b <;> simp_all [spellOf, forceDefault, SetK.any]
  | int n =>
    simp only [spellOf] at hsk
    split_ifs at hsk with hn
    left
    simp [forceDefault, SetK.any, hn.ne']
  | pair a b =>
    simp only [spellOf] at hsk
    split_ifs at hsk with hn
    simp only [Option.some.injEq, Prod.mk.injEq] at hsk
    by_cases h0 : a = 0 ∧ b = 0
    · right; rw [← hsk.1, ← hsk.2, h0.1, h0.2]; exact ⟨rfl, rfl⟩
    · left
      simp only [forceDefault, SetK.any]
      rw [Bool.not_eq_false']
      simp only [Bool.or_eq_true, decide_eq_true_eq]
      tauto

/-- **C18** (holds if some shock is not in period 0): with `force_init_equil` (and nothing imposed) the equilibrium is
recomputed only in periods in which a shock occurs; in all other periods the previous spell is continued. -/
theorem C18_spell_continued_partial (h : Succeeded lay orc lMax kMax sched mod) (hk1 : 1 ≤ kMax) {sk : SetK}
    (hsk : sk = .none ∨ sk = .bool false) (sl : List (ShockSpec ε K)) (hper : ∃ s ∈ sl, s.2.2 ≠ 0) (st : p ⊕ z → K) (T : Nat) :
    ∃ xs, irfs mod ⟨sl, sk, true, false⟩ st T = .ok xs ∧ xs.length = T ∧
      ∀ i s s', ((⟨st, 0, 0, 0, false⟩ : IrfState z p K) :: xs)[i]? = some s → xs[i]? = some s' →
        (shkVec sl i = 0 → (s'.l, s'.k) = elapsed s.l s.k 1 ∧
          ∃ r, tFunc mod s.state 0 (.pair (s'.l : Int) (s'.k : Int)) false = .ok r ∧ s'.state = r.state) ∧
        (shkVec sl i ≠ 0 → ∃ r, tFunc mod s.state (shkVec sl i) .none false = .ok r ∧ s'.state = r.state ∧ s'.l = r.l ∧ s'.k = r.k) := by
  obtain ⟨c, hm⟩ := genSys_ok h.perm h.gen
  have hlks := hm.lks
  have := h.states
  have hp : anyPeriod sl = true := by
    obtain ⟨s, h1, h2⟩ := hper
    exact List.any_eq_true.2 ⟨s, h1, by simp [h2]⟩
  have step : ∀ t (s : IrfState z p K), s.l ≤ lMax ∧ s.k ≤ kMax →
      ∃ s', irfStep mod ⟨sl, sk, true, false⟩ s t = .ok s' ∧ (s'.l ≤ lMax ∧ s'.k ≤ kMax) ∧
        (shkVec sl t = 0 → (s'.l, s'.k) = elapsed s.l s.k 1 ∧
          ∃ r, tFunc mod s.state 0 (.pair (s'.l : Int) (s'.k : Int)) false = .ok r ∧ s'.state = r.state) ∧
        (shkVec sl t ≠ 0 → ∃ r, tFunc mod s.state (shkVec sl t) .none false = .ok r ∧ s'.state = r.state ∧ s'.l = r.l ∧ s'.k = r.k) := by
    intro t s hs
    obtain ⟨en, hen, hel, hek⟩ := tFunc_endo h hk1 s.state (shkVec sl t) false
    unfold irfStep
    simp only [hp, Bool.true_and, Bool.and_true]
    by_cases h0 : shkVec sl t = 0
    · obtain ⟨e1, e2⟩ := elapsed_le hs.1 hs.2 1
      obtain ⟨r, hr, hr1, -⟩ := tFunc_imposed h s.state (shkVec sl t) false e1 e2
      obtain ⟨hr1, hr2⟩ := hr1 rfl
      have hlong : tooLong mod.lks (.pair ((elapsed s.l s.k 1).1 : Int) ((elapsed s.l s.k 1).2 : Int)) = false := by
        simp only [tooLong, hlks, decide_eq_false_iff_not]; omega
      rw [if_pos (by rw [anyNonzero_false.2 h0]; rfl), hen]
      simp only [continued_eq, hlong, hr]
      refine ⟨_, rfl, ⟨by rw [hr1]; exact e1, by rw [hr2]; exact e2⟩, fun _ => ⟨by rw [hr1, hr2], r, ?_, rfl⟩, fun h1 => absurd h0 h1⟩
      rw [hr1, hr2, ← h0, hr]
    · have h1 : anyNonzero (shkVec sl t) = true := by
        by_contra hc
        exact h0 (anyNonzero_false.1 (by simpa using hc))
      rw [if_neg (by rw [h1]; decide)]
      rcases hsk with hsk | hsk <;> subst hsk <;> simp only [setKEff, Bool.false_eq_true, if_false, tooLong, tFunc_bool, hen] <;>
      exact ⟨_, rfl, ⟨hel, hek⟩, fun h2 => absurd h2 h0, fun _ => ⟨en, rfl, rfl, rfl, rfl⟩⟩
  obtain ⟨xs, hxs⟩ := irfRun_exists (m := mod) (a := ⟨sl, sk, true, false⟩) (fun _ (s : IrfState z p K) => s.l ≤ lMax ∧ s.k ≤ kMax)
    (fun t s hs => by
      obtain ⟨s', h1, h2, _⟩ := step t s hs
      exact ⟨s', h1, h2⟩) T 0 ⟨st, 0, 0, 0, false⟩ ⟨Nat.zero_le _, Nat.zero_le _⟩
  obtain ⟨hlen, hst⟩ := irfRun_steps hxs
  have hinv : ∀ (i : Nat) (s : IrfState z p K), ((⟨st, 0, 0, 0, false⟩ : IrfState z p K) :: xs)[i]? = some s → s.l ≤ lMax ∧ s.k ≤ kMax := by
    intro i
    induction i with
    | zero =>
      intro s hs
      simp only [List.getElem?_cons_zero, Option.some.injEq] at hs
      subst hs
      exact ⟨Nat.zero_le _, Nat.zero_le _⟩
    | succ i ih =>
      intro s' hs'
      simp only [List.getElem?_cons_succ] at hs'
      have hi : i < xs.length := (List.getElem?_eq_some_iff.1 hs').1
      obtain ⟨s, hs⟩ : ∃ s, ((⟨st, 0, 0, 0, false⟩ : IrfState z p K) :: xs)[i]? = some s :=
        ⟨_, List.getElem?_eq_getElem (by simp; omega)⟩
      have h1 := hst i s s' hs hs'
      obtain ⟨s2, h2, h3, _⟩ := step (0 + i) s (ih s hs)
      rw [h1, Except.ok.injEq] at h2
      rw [h2]; exact h3
  refine ⟨xs, hxs, hlen, ?_⟩
  intro i s s' hs hs'
  have h1 := hst i s s' hs hs'
  rw [Nat.zero_add] at h1
  obtain ⟨s2, h2, _, h3, h4⟩ := step i s (hinv i s hs)
  rw [h1, Except.ok.injEq] at h2
  subst h2
  exact ⟨h3, h4⟩

/-- **C67** (holds if the equilibrium is recomputed in every period): every state of an impulse response satisfies the bound. -/
theorem C67_irfs_respect_bound_partial (h : Succeeded lay orc lMax kMax sched mod) (hk1 : 1 ≤ kMax) (hfb : m.fb0 m.cvar ≠ 0)
    {sk : SetK} (hsk : sk = .none ∨ sk = .bool false) (sl : List (ShockSpec ε K)) {force : Bool}
    (hforce : force = false ∨ ∀ s ∈ sl, s.2.2 = 0) (st : p ⊕ z → K) (T : Nat) :
    ∃ xs, irfs mod ⟨sl, sk, force, false⟩ st T = .ok xs ∧ xs.length = T ∧
      ∀ s ∈ xs, m.xbar ≤ lay.val s.state (.inl m.cvar) := by
  have hp : (force && anyPeriod sl) = false := by
    rcases hforce with h0 | h0
    · simp [h0]
    · rw [Bool.and_eq_false_iff]; right
      unfold anyPeriod
      rw [List.any_eq_false]
      intro s hs
      simp [h0 s hs]
  have step : ∀ t (s : IrfState z p K), ∃ s', irfStep mod ⟨sl, sk, force, false⟩ s t = .ok s' ∧
      m.xbar ≤ lay.val s'.state (.inl m.cvar) := by
    intro t s
    obtain ⟨r, hr, hb⟩ := C02_never_below_bound h hk1 hfb s.state (shkVec sl t)
    unfold irfStep
    simp only
    rw [if_neg (by
      intro hc
      simp only [Bool.and_eq_true] at hc
      rw [Bool.and_eq_false_iff] at hp
      rcases hp with hp | hp
      · rw [hp] at hc; simp at hc
      · rw [hp] at hc; simp at hc)]
    rcases hsk with hsk | hsk <;> subst hsk <;> simp only [setKEff, Bool.false_eq_true, if_false, tooLong, tFunc_bool, hr] <;>
    exact ⟨_, rfl, hb⟩
  obtain ⟨xs, hxs⟩ := irfRun_exists (m := mod) (a := ⟨sl, sk, force, false⟩) (fun _ _ => True)
    (fun t s _ => by
      obtain ⟨s', h1, _⟩ := step t s
      exact ⟨s', h1, trivial⟩) T 0 ⟨st, 0, 0, 0, false⟩ trivial
  obtain ⟨hlen, hst⟩ := irfRun_steps hxs
  refine ⟨xs, hxs, hlen, ?_⟩
  intro s' hs'
  obtain ⟨i, hi, hs'⟩ := List.mem_iff_getElem.1 hs'
  obtain ⟨s, hs⟩ : ∃ s, ((⟨st, 0, 0, 0, false⟩ : IrfState z p K) :: xs)[i]? = some s :=
    ⟨_, List.getElem?_eq_getElem (by simp; omega)⟩
  have h1 := hst i s s' hs (by rw [List.getElem?_eq_getElem hi, hs'])
  obtain ⟨s2, h2, h3⟩ := step (0 + i) s
  rw [h1, Except.ok.injEq] at h2
  rw [h2]; exact h3

end Model

section NonVacuity
open Ex1

example : spellOf (.pair 2 3) = some (2, 3) ∧ spellOf (.int 3) = some (0, 3) ∧ spellOf (.bool true) = some (0, 1) := by decide

/-- Non-vacuity of C09 and C16 on the example model: a combination of two shocks; a spell inside and one outside the tables. -/
example : ∃ mod, Succeeded Ex1.lay Ex1.orc 3 2 (serial 2) mod ∧
    (∃ C, irfs mod ⟨[((0 : Fin 1), (2 * (-9) : Rat), 0)], .bool false, true, true⟩ (2 • 0 + 3 • 0) 5 = .ok C) ∧
    (∃ xs, irfs mod ⟨[((0 : Fin 1), (-9 : Rat), 0)], .pair 1 2, false, false⟩ 0 5 = .ok xs) ∧
    irfs mod ⟨[((0 : Fin 1), (-9 : Rat), 0)], .pair 1 3, false, false⟩ 0 5 = .error .indexError := by
  obtain ⟨mod, h⟩ := ex1_succeeds 3 2
  refine ⟨mod, h, ?_, ?_, ?_⟩
  · obtain ⟨A, B, C, h1, h2, h3, _⟩ := C09_superposition h (sk := .bool false) (.inr rfl) true true true 2 3
      [((0 : Fin 1), (-9 : Rat), 0)] [] [((0 : Fin 1), (2 * (-9) : Rat), 0)] 5
      (fun t _ => by
        have := C09_shocks_scale (2 : Rat) [((0 : Fin 1), (-9 : Rat), (0 : Int))] t
        simp only [List.map_cons, List.map_nil] at this
        rw [this]
        simp [shkVec]) 0 0
    exact ⟨C, h3⟩
  · obtain ⟨xs, h1, _⟩ := (C16_imposed_spell_elapses h (sk := .pair 1 2) (l := 1) (k := 2) (by decide)
      [((0 : Fin 1), (-9 : Rat), 0)] false (.inl rfl) 0 5).1 (by omega)
    exact ⟨xs, h1⟩
  · exact (C16_imposed_spell_elapses h (sk := .pair 1 3) (l := 1) (k := 3) (by decide)
      [((0 : Fin 1), (-9 : Rat), 0)] false (.inl rfl) 0 5).2 (by omega) (by omega)

/-- **C18** refuted: a shock in period 0, nothing afterwards, `force_init_equil` by default.  In period 1 the equilibrium is
recomputed and is not the continuation of the previous one. -/
theorem C18_spell_continued_refuted : ∃ mod, Succeeded Ex1.lay Ex1.orc 3 1 (serial 1) mod ∧
    ∃ s0 s1, irfs mod ⟨[((0 : Fin 1), (-9 : Rat), 0)], .bool false, forceDefault none (.bool false), false⟩ 0 2 = .ok [s0, s1] ∧
      shkVec [((0 : Fin 1), (-9 : Rat), (0 : Int))] 1 = 0 ∧ (s1.l, s1.k) ≠ elapsed s0.l s0.k 1 := by
  obtain ⟨mod, h⟩ := ex1_succeeds 3 1
  have e0 : shkVec [((0 : Fin 1), (-9 : Rat), (0 : Int))] 0 0 = -9 := by simp [shkVec]
  have e1 : shkVec [((0 : Fin 1), (-9 : Rat), (0 : Int))] 1 = 0 := by simp [shkVec]
  obtain ⟨r0, a1, a2, a3, a4, a5⟩ := low_run 3 (by omega) h 0 (shkVec [((0 : Fin 1), (-9 : Rat), (0 : Int))] 0)
    (by rw [e0]; norm_num)
  obtain ⟨r1, b1, b2, b3, b4, b5⟩ := low_run 3 (by omega) h r0.state 0
    (by rw [a5, e0]; norm_num)
  rw [← e1] at b1
  refine ⟨mod, h, ⟨r0.state, r0.l, r0.k, 0 ||| r0.flag, false⟩, ⟨r1.state, r1.l, r1.k, (0 ||| r0.flag) ||| r1.flag, false⟩, ?_, e1, ?_⟩
  · simp [irfs, irfRun, irfStep, anyPeriod, setKEff, tooLong, tFunc_bool, a1, b1]
  · simp only [a2, a3, b2, b3]; decide

/-- **C67** refuted: from a state below the bound, with a shock in period 1, `irfs` imposes the unconstrained solution in period
0, does not set a flag, and returns a constrained variable below its bound. -/
theorem C67_irfs_respect_bound_refuted : ∃ mod, Succeeded Ex1.lay Ex1.orc 3 2 (serial 2) mod ∧
    ∃ s0, irfs mod ⟨[((0 : Fin 1), (1 : Rat), 1)], .bool false, forceDefault none (.bool false), false⟩ (fun _ => -4) 1 = .ok [s0] ∧
      s0.flag = 0 ∧ Ex1.lay.val s0.state (.inl Ex1.decl.cvar) < Ex1.decl.xbar := by
  obtain ⟨mod, h⟩ := ex1_succeeds 3 2
  obtain ⟨c, hm⟩ := genSys_ok h.perm h.gen
  obtain ⟨c0, -⟩ := cells (b := -1) (by omega) hm
  have := h.states
  have e0 : shkVec [((0 : Fin 1), (1 : Rat), (1 : Int))] 0 = 0 := by simp [shkVec]
  obtain ⟨en, hen, -, -⟩ := tFunc_endo h (by omega) (fun _ => -4) (0 : Fin 1 → Rat) false
  have hr := tFunc_pair hm (fun _ => -4) (0 : Fin 1 → Rat) (Nat.zero_le 3) (Nat.zero_le 2)
  simp only [Nat.cast_zero] at hr
  have hlong : tooLong mod.lks (.pair 0 0) = false := by
    simp [tooLong]
  refine ⟨mod, h, ⟨xPath c 0 0 (q0Of (fun _ : Fin 1 ⊕ Fin 1 => -4) 0) 0, 0, 0, 0, decide (SetK.pair 0 0 ≠ .pair en.l en.k)⟩, ?_, rfl, ?_⟩
  · simp [irfs, irfRun, irfStep, forceDefault, SetK.any, anyPeriod, e0, anyNonzero_false.2, hen, continued, hlong, hr]
  · simp only [xPath_zero, c0]
    simp [Layout.val, Ex1.layB, Ex1.declB, omg, q0Of, mulVec, dotProduct, Fintype.sum_sum_type]
    norm_num

end NonVacuity
end Pydsge
