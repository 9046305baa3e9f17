import Verif.Examples.Ex1Cells

/-!
# C12, C13, C65: `traj` and `k_map`
-/

set_option autoImplicit false
set_option linter.unusedSectionVars false

namespace Pydsge

open Matrix Pydsge.Engine Pydsge.Spec Pydsge.Tools Pydsge.GenSys

theorem mapM_ok {α β : Type} (f : α → Except PyErr β) (g : α → β) (xs : List α) (h : ∀ x ∈ xs, f x = .ok (g x)) :
    xs.mapM f = .ok (xs.map g) := by
  induction xs with
  | nil => rfl
  | cons x xs ih =>
    rw [List.mapM_cons, h x (by simp), ih (fun y hy => h y (by simp [hy]))]
    rfl

section Model
variable {E ν ε o K : Type} [Fintype E] [Fintype ν] [Fintype ε] [Fintype o]
  [DecidableEq E] [DecidableEq ν] [DecidableEq ε] [Field K] [LinearOrder K] [IsStrictOrderedRing K]
variable {H z p : Type} [DecidableEq H] [Fintype H] [Fintype z] [Fintype p] [DecidableEq z] [DecidableEq p]
variable {tol : K} {m : Input E ν ε o K} [DecidablePred (inall tol m)] {lay : Layout tol m H z p}
  {orc : Oracle (Rows E H ε) (z ⊕ ε) p K} {lMax kMax : Nat} {sched sched' : Nat → List Nat} {mod : Model z ε p o K}

/-- What fresh trajectory tables contain. -/
theorem newTmats_read {c : Nat → Nat → Cell (z ⊕ ε) p K} (hm : SolvedModel lay orc lMax kMax mod c)
    (hs' : ∀ l < lMax + 1, (sched' l).Perm (List.range (kMax + 1))) :
    ∃ tt, newTmats mod sched' = .ok tt ∧ tt.L = lMax + 1 ∧ tt.Kk = kMax + 1 ∧
      ∀ state s l k, s < lMax + kMax + 2 → l ≤ lMax → k ≤ kMax → tt.read state s l k = .ok (pathValue (ff lay) c state l k s) := by
  obtain ⟨M', hS⟩ := hm.eng
  unfold newTmats
  rw [hS.shapeL, hS.shapeK, hm.ff, tLoop_spec (ff lay) mod.tables.pq c _ _ hS.complete.filled sched' hs']
  refine ⟨_, rfl, rfl, rfl, ?_⟩
  intro state s l k h1 h2 h3
  unfold TTab.read
  simp only
  rw [if_pos ⟨by omega, by omega, by omega⟩, if_pos ⟨by omega, by omega⟩, if_pos (by omega)]
  simp only [rowAt_value]
  rfl

theorem cnstValue_eq {c : Nat → Nat → Cell (z ⊕ ε) p K} (hm : SolvedModel lay orc lMax kMax mod c) {l k : Nat} (hl : l ≤ lMax)
    (hk : k ≤ kMax) {Q : Nat → z ⊕ ε → K} {P : Nat → p → K} (h : SpellPath mod.tables mod.xbar l k Q P) (s : Nat) :
    cnstValue mod.ff Q P s = pathValue (ff lay) c (Q 0) l k s := by
  obtain ⟨M', hS⟩ := hm.eng
  obtain ⟨hQ, hP⟩ := (spellPath_iff hS mod.xbar hl hk Q P).1 h
  unfold cnstValue pathValue
  rw [hm.ff, hP s, hQ (s+1), hQ s]

/-- **C12**, what `traj` really returns: with the equilibrium `(l,k)` found or given, the trajectory of the constraint value
under the spell `(l, k-1)`, or `(l, k_max)` if `k = 0`.  (Missing: it should be the one under `(l,k)`, which is refuted
below.) -/
theorem C12_traj_shifted_partial (h : Succeeded lay orc lMax kMax sched mod)
    (hs' : ∀ l < lMax + 1, (sched' l).Perm (List.range (kMax + 1))) {tt : TTab (z ⊕ ε) K} (ht : newTmats mod sched' = .ok tt)
    (state : z ⊕ ε → K) (lArg kArg : Option Int) {l k : Nat} (hl : l ≤ lMax) (hk : k ≤ kMax)
    (hlk : trajLK mod state lArg kArg = .ok ((l : Int), (k : Int))) :
    ∃ vals, traj mod tt state lArg kArg = .ok (((l : Int), (k : Int)), vals) ∧ vals.length = lMax + kMax + 2 ∧
      ∀ s Q P, s < lMax + kMax + 2 → SpellPath mod.tables mod.xbar l (if k = 0 then kMax else k - 1) Q P → Q 0 = state →
        vals[s]? = some (cnstValue mod.ff Q P s) := by
  obtain ⟨c, hm⟩ := genSys_ok h.perm h.gen
  obtain ⟨tt', e1, e2, e3, e4⟩ := newTmats_read hm hs'
  rw [ht, Except.ok.injEq] at e1
  subst e1
  set k' := (if k = 0 then kMax else k - 1) with hk'
  have hk'' : k' ≤ kMax := by rw [hk']; split_ifs <;> omega
  have hidx : pyIdx (kMax + 1) ((k : Int) - 1) = .ok k' := by
    unfold pyIdx
    rw [hk']
    rcases Nat.eq_zero_or_pos k with h0 | h0
    · subst h0
      rw [if_neg (by omega), if_pos (by omega), if_pos rfl]
      congr 1; omega
    · rw [if_pos (by omega), if_neg (by omega)]
      congr 1; omega
  have hv : trajVals tt state l k = .ok ((List.range (lMax + kMax + 2)).map (pathValue (ff lay) c state l k')) := by
    unfold trajVals
    rw [e2, e3, pyIdx_nat (by omega), hidx]
    simp only
    rw [show lMax + 1 + (kMax + 1) = lMax + kMax + 2 by omega]
    exact mapM_ok _ _ _ (fun s hs => e4 state s l k' (List.mem_range.1 hs) hl hk'')
  refine ⟨(List.range (lMax + kMax + 2)).map (pathValue (ff lay) c state l k'), ?_, ?_, ?_⟩
  · unfold traj
    rw [hlk]
    simp only
    rw [hv]
  · simp
  · intro s Q P hs hQP h0
    rw [cnstValue_eq hm hl hk'' hQP, h0]
    simp [List.getElem?_range hs]

/-- **C65**: with fresh tables, `k_map` returns the distance from the bound in the first period after the spell `(i,k)`, for
`i < l_max`, and after `(l,i)`, for `i < k_max`, of the paths simulated step by step under these spells. -/
theorem C65_k_map_values (h : Succeeded lay orc lMax kMax sched mod)
    (hs' : ∀ l < lMax + 1, (sched' l).Perm (List.range (kMax + 1))) {tt : TTab (z ⊕ ε) K} (ht : newTmats mod sched' = .ok tt)
    (state : z ⊕ ε → K) (lArg kArg : Option Nat) {l k : Nat} (hl : l ≤ lMax) (hk : k ≤ kMax)
    (hlk : kMapLK mod state lArg kArg = .ok (l, k)) :
    ∃ ls ks, kMap mod tt state lArg kArg = .ok (ls, ks) ∧ ls.length = lMax ∧ ks.length = kMax ∧
      (∀ i Q P, i < lMax → SpellPath mod.tables mod.xbar i k Q P → Q 0 = state →
        ls[i]? = some (cnstValue mod.ff Q P (i + k) - mod.xbar)) ∧
      (∀ i Q P, i < kMax → SpellPath mod.tables mod.xbar l i Q P → Q 0 = state →
        ks[i]? = some (cnstValue mod.ff Q P (l + i) - mod.xbar)) := by
  obtain ⟨c, hm⟩ := genSys_ok h.perm h.gen
  obtain ⟨tt', e1, e2, e3, e4⟩ := newTmats_read hm hs'
  rw [ht, Except.ok.injEq] at e1
  subst e1
  have h1 : (List.range lMax).mapM (fun i => tt.read state (i + k) i k) =
      .ok ((List.range lMax).map (fun i => pathValue (ff lay) c state i k (i + k))) :=
    mapM_ok _ _ _ (fun i hi => by
      have := List.mem_range.1 hi
      exact e4 state (i + k) i k (by omega) (by omega) hk)
  have h2 : (List.range kMax).mapM (fun i => tt.read state (l + i) l i) =
      .ok ((List.range kMax).map (fun i => pathValue (ff lay) c state l i (l + i))) :=
    mapM_ok _ _ _ (fun i hi => by
      have := List.mem_range.1 hi
      exact e4 state (l + i) l i (by omega) (by omega) (by omega))
  refine ⟨((List.range lMax).map (fun i => pathValue (ff lay) c state i k (i + k))).map (· - mod.xbar),
    ((List.range kMax).map (fun i => pathValue (ff lay) c state l i (l + i))).map (· - mod.xbar), ?_, ?_, ?_, ?_, ?_⟩
  · unfold kMap
    rw [hlk]
    simp only [kMapVals, hm.lks]
    rw [h1]
    simp only
    rw [h2]
  · simp
  · simp
  · intro i Q P hi hQP h0
    rw [cnstValue_eq hm (by omega) hk hQP, h0]
    simp [List.getElem?_range hi]
  · intro i Q P hi hQP h0
    rw [cnstValue_eq hm hl (by omega) hQP, h0]
    simp [List.getElem?_range hi]

end Model

section Cache
variable {z ε p o K : Type} [Fintype z] [Fintype ε] [Fintype p] [Fintype o] [DecidableEq z] [DecidableEq ε] [DecidableEq p]
  [Field K] [LinearOrder K]

/-- The answer that the current solution alone implies: evaluate the query on an object without cached tables. -/
def freshAnswer (sched : Nat → List Nat) (mod : Model z ε p o K) (c : TCall z ε p o K) : TAns K :=
  ((⟨mod, none⟩ : TObj z ε p o K).call sched c).2

/-- A call of `traj` or `k_map`. -/
def IsQuery : TCall z ε p o K → Prop
  | .setPar _ => False
  | _ => True

/-- The cached tables, if any, belong to the current solution. -/
def CacheOK (sched : Nat → List Nat) (ob : TObj z ε p o K) : Prop :=
  ∀ tt, ob.cache = some tt → newTmats ob.mod sched = .ok tt

theorem tmats_fresh {sched : Nat → List Nat} {ob : TObj z ε p o K} (h : CacheOK sched ob) :
    ob.tmats sched = newTmats ob.mod sched := by
  unfold TObj.tmats
  cases hc : ob.cache with
  | none => rfl
  | some tt => exact (h tt hc).symm

theorem query_ok {sched : Nat → List Nat} {ob : TObj z ε p o K} (h : CacheOK sched ob) {c : TCall z ε p o K} (hc : IsQuery c) :
    (ob.call sched c).2 = freshAnswer sched ob.mod c ∧ (ob.call sched c).1.mod = ob.mod ∧ CacheOK sched (ob.call sched c).1 := by
  have h1 : (⟨ob.mod, none⟩ : TObj z ε p o K).tmats sched = newTmats ob.mod sched := rfl
  have h2 := tmats_fresh h
  cases c with
  | setPar m => exact absurd hc (by simp [IsQuery])
  | traj state l k =>
    unfold freshAnswer TObj.call
    simp only [h1, h2]
    cases trajLK ob.mod state l k with
    | error e => exact ⟨rfl, rfl, h⟩
    | ok lk =>
      simp only
      cases hn : newTmats ob.mod sched with
      | error e => exact ⟨rfl, rfl, h⟩
      | ok tt =>
        refine ⟨rfl, rfl, fun tt' ht => ?_⟩
        simp only [Option.some.injEq] at ht
        subst ht; exact hn
  | kMap state l k =>
    unfold freshAnswer TObj.call
    simp only [h1, h2]
    cases kMapLK ob.mod state l k with
    | error e => exact ⟨rfl, rfl, h⟩
    | ok lk =>
      simp only
      cases hn : newTmats ob.mod sched with
      | error e => exact ⟨rfl, rfl, h⟩
      | ok tt =>
        refine ⟨rfl, rfl, fun tt' ht => ?_⟩
        simp only [Option.some.injEq] at ht
        subst ht; exact hn

theorem queries_ok {sched : Nat → List Nat} (cs : List (TCall z ε p o K)) {ob : TObj z ε p o K} (h : CacheOK sched ob)
    (hc : ∀ c ∈ cs, IsQuery c) :
    (ob.run sched cs).2 = cs.map (freshAnswer sched ob.mod) ∧ (ob.run sched cs).1.mod = ob.mod := by
  induction cs generalizing ob with
  | nil => exact ⟨rfl, rfl⟩
  | cons c cs ih =>
    obtain ⟨a, b, d⟩ := query_ok h (hc c (by simp))
    obtain ⟨e, f⟩ := ih d (fun c' h' => hc c' (by simp [h']))
    rw [b] at e f
    refine ⟨?_, f⟩
    simp only [TObj.run, List.map_cons, a, e]

/-- **C13**, the part that holds: in a history that first sets parameters (any number of times) and then only queries, every
answer of `traj` and `k_map` is the one implied by the current solution.  (Missing: histories in which `set_par` follows a
query; refuted below.) -/
theorem C13_current_parameters_partial (sched : Nat → List Nat) (m0 : Model z ε p o K) (sets : List (Model z ε p o K))
    (qs : List (TCall z ε p o K)) (hq : ∀ c ∈ qs, IsQuery c) :
    ((⟨m0, none⟩ : TObj z ε p o K).run sched (sets.map TCall.setPar ++ qs)).2 =
      sets.map (fun _ => TAns.unit) ++ qs.map (freshAnswer sched (sets.getLastD m0)) := by
  induction sets generalizing m0 with
  | nil =>
    simp only [List.map_nil, List.nil_append, List.getLastD_nil]
    exact (queries_ok qs (by intro tt h; cases h) hq).1
  | cons m ms ih =>
    have := ih m
    simp only [List.map_cons, List.cons_append, TObj.run, TObj.call, List.getLastD_cons]
    rw [this]

end Cache

section Refutations
open Ex1

theorem ex1_cell_value {b : Rat} {lMax kMax : Nat} {mod : Model (Fin 1) (Fin 1) (Fin 1) (Fin 1) Rat}
    {c : Nat → Nat → Cell Q (Fin 1) Rat} (h : SolvedModel (layB b) orc lMax kMax mod c) {k : Nat} (h2 : 2 ≤ k) (hk : k ≤ kMax) :
    pathValue (ff (layB b)) c 0 0 k 0 = -b := by
  have hc := cells02 h h2 hk
  simp only [pathValue, fp1_eq, fq0_eq, fq1_eq, zero_dotProduct, qPath, locCell_zero, hc, mulVec_zero, zero_add, add_zero]
  simp [dotProduct, Fintype.sum_sum_type, cell02]

theorem findLk_zero {b : Rat} (hb : b < 0) {lMax kMax : Nat} {mod : Model (Fin 1) (Fin 1) (Fin 1) (Fin 1) Rat}
    (h : Succeeded (layB b) orc lMax kMax (serial kMax) mod) : trajLK mod 0 none none = .ok (0, 0) := by
  obtain ⟨r, h1, h2, h3, h4, h5⟩ := C10_steady_state_fixed_point h hb false
  obtain ⟨c, hm⟩ := genSys_ok h.perm h.gen
  obtain ⟨M', hS⟩ := hm.eng
  have hz : ¬ (Fintype.card (Fin 1) = 0 ∧ Fintype.card (Fin 1) ≠ 0) := by simp
  have hq : (Sum.elim (fun i => (0 : Fin 1 ⊕ Fin 1 → Rat) (.inr i)) (0 : Fin 1 → Rat) : Fin 1 ⊕ Fin 1 → Rat) = 0 := by
    funext j; rcases j with j | j <;> rfl
  unfold tFunc tFuncRaw at h1
  rw [if_neg hz, hq] at h1
  simp only [setLK, Bool.false_eq_true, if_false, tFuncJit, if_true] at h1
  unfold trajLK
  simp only
  cases hf : findLk (checkCnst mod.tables 0) mod.xbar mod.tables.L mod.tables.Kk with
  | error e => rw [hf] at h1; cases h1
  | ok lkf =>
    obtain ⟨l, k, fl⟩ := lkf
    rw [hf] at h1
    simp only at h1 ⊢
    cases hp : mod.tables.pq l k with
    | none => rw [hp] at h1; cases h1
    | some cc =>
      rw [hp] at h1
      simp only [Except.ok.injEq] at h1
      subst h1
      simp only at h3 h4
      subst h3 h4
      rfl

/-- **C12** refuted: in the example model, `traj` at the steady state reports `(0,0)`, but its first value is `1` where the
constraint value in period 0 under `(0,0)` is `0`. -/
theorem C12_traj_refuted : ∃ mod tt vals, Succeeded Ex1.lay Ex1.orc 3 2 (serial 2) mod ∧ newTmats mod (serial 2) = .ok tt ∧
    traj mod tt 0 none none = .ok ((0, 0), vals) ∧
    ∃ Q P, SpellPath mod.tables mod.xbar 0 0 Q P ∧ Q 0 = 0 ∧ cnstValue mod.ff Q P 0 = 0 ∧ vals[0]? = some 1 := by
  obtain ⟨mod, h⟩ := ex1_succeeds 3 2
  obtain ⟨c, hm⟩ := genSys_ok h.perm h.gen
  obtain ⟨M', hS⟩ := hm.eng
  obtain ⟨tt, e1, e2, e3, e4⟩ := newTmats_read hm (Ex1.serial_perm 3 2)
  obtain ⟨vals, v1, v2, v3⟩ := C12_traj_shifted_partial h (Ex1.serial_perm 3 2) e1 0 none none (Nat.zero_le 3) (Nat.zero_le 2)
    (findLk_zero (by norm_num) h)
  refine ⟨mod, tt, vals, h, e1, v1, _, _, spellPath_exists hS mod.xbar (Nat.zero_le 3) (Nat.zero_le 2) 0, rfl, ?_, ?_⟩
  · rw [cnstValue_eq hm (Nat.zero_le 3) (Nat.zero_le 2) (spellPath_exists hS mod.xbar (Nat.zero_le 3) (Nat.zero_le 2) 0)]
    have h0 := cells_l0 hS (sysOf_T12 h.orc).1 (h.orc.klein _ _ hm.kl) (Nat.zero_le 3)
    have hq : qPath c 0 0 (0 : Q → Rat) 0 = 0 := rfl
    simp only [hq, pathValue, fp1_eq, fq0_eq, zero_dotProduct]
    simp only [qPath, locCell_zero, h0, mulVec_zero, add_zero, dotProduct_zero]
  · rw [v3 0 _ _ (by omega) (spellPath_exists hS mod.xbar (Nat.zero_le 3) (by simp) 0) rfl,
      cnstValue_eq hm (Nat.zero_le 3) (by simp) (spellPath_exists hS mod.xbar (Nat.zero_le 3) (by simp) 0)]
    simp only [if_true, qPath]
    rw [ex1_cell_value hm (by omega) (by omega)]
    norm_num

/-- **C13** refuted: after `traj`, changing the parameter `x_bar` of the example model from `-1` to `-2` with `set_par` and
calling `traj` again gives the trajectory of the old parameters. -/
theorem C13_stale_tables_refuted : ∃ mod1 mod2 : Model (Fin 1) (Fin 1) (Fin 1) (Fin 1) Rat,
    Succeeded (Ex1.layB (-1)) Ex1.orc 3 2 (serial 2) mod1 ∧ Succeeded (Ex1.layB (-2)) Ex1.orc 3 2 (serial 2) mod2 ∧
    ∃ a b c : (Int × Int) × List Rat,
      ((⟨mod1, none⟩ : TObj _ _ _ _ _).run (serial 2) [.traj 0 none none, .setPar mod2, .traj 0 none none]).2 =
        [.traj (.ok a), .unit, .traj (.ok b)] ∧
      freshAnswer (serial 2) mod2 (.traj 0 none none) = .traj (.ok c) ∧ b.2[0]? = some 1 ∧ c.2[0]? = some 2 := by
  obtain ⟨mod1, h1⟩ := Ex1.succeeds (b := -1) 3 2 (Ex1.serial_perm 3 2)
  obtain ⟨mod2, h2⟩ := Ex1.succeeds (b := -2) 3 2 (Ex1.serial_perm 3 2)
  obtain ⟨c1, hm1⟩ := genSys_ok h1.perm h1.gen
  obtain ⟨c2, hm2⟩ := genSys_ok h2.perm h2.gen
  obtain ⟨M1, hS1⟩ := hm1.eng
  obtain ⟨M2, hS2⟩ := hm2.eng
  obtain ⟨t1, e1, e2, e3, e4⟩ := newTmats_read hm1 (Ex1.serial_perm 3 2)
  obtain ⟨t2, f1, f2, f3, f4⟩ := newTmats_read hm2 (Ex1.serial_perm 3 2)
  have hv : ∀ (tt : TTab (Fin 1 ⊕ Fin 1) Rat) (b : Rat), tt.L = 3 + 1 → tt.Kk = 2 + 1 → tt.read 0 0 0 2 = .ok (-b) →
      (∀ s < 7, ∃ x, tt.read 0 s 0 2 = .ok x) → ∃ vals, trajVals tt 0 0 0 = .ok vals ∧ vals[0]? = some (-b) := by
    intro tt b g1 g2 g3 g4
    have hx : ∀ s, ∃ x, s < 7 → tt.read 0 s 0 2 = .ok x := by
      intro s
      by_cases hs : s < 7
      · obtain ⟨x, hx⟩ := g4 s hs; exact ⟨x, fun _ => hx⟩
      · exact ⟨0, fun h => absurd h hs⟩
    choose x hx using hx
    refine ⟨(List.range 7).map x, ?_, ?_⟩
    · unfold trajVals
      rw [g1, g2]
      exact mapM_ok _ _ _ (fun s hs => hx s (List.mem_range.1 hs))
    · have := hx 0 (by omega)
      rw [g3, Except.ok.injEq] at this
      simp [this]
  have l1 := findLk_zero (by norm_num) h1
  have l2 := findLk_zero (by norm_num) h2
  obtain ⟨w1, w2, w3⟩ := hv t1 (-1) e2 e3
    (by rw [e4 0 0 0 2 (by omega) (by omega) (by omega), ex1_cell_value hm1 (by omega) (by omega)])
    (fun s hs => ⟨_, e4 0 s 0 2 (by omega) (by omega) (by omega)⟩)
  obtain ⟨u1, u2, u3⟩ := hv t2 (-2) f2 f3
    (by rw [f4 0 0 0 2 (by omega) (by omega) (by omega), ex1_cell_value hm2 (by omega) (by omega)])
    (fun s hs => ⟨_, f4 0 s 0 2 (by omega) (by omega) (by omega)⟩)
  refine ⟨mod1, mod2, h1, h2, ((0,0), w1), ((0,0), w1), ((0,0), u1), ?_, ?_, ?_, ?_⟩
  · simp only [TObj.run, TObj.call, TObj.tmats, l1, l2, e1, Tools.traj, w2]
  · simp only [freshAnswer, TObj.call, TObj.tmats, l2, f1, Tools.traj, u2]
  · rw [w3]; norm_num
  · rw [u3]; norm_num

end Refutations
end Pydsge
