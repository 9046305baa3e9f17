import Verif.Props.ParDict
import Verif.Props.Files
import Verif.Props.Engine

/-!
# Exact outcomes of calls with parameters and data (C32, C61, C151), and of transitions in tables without spells (C05)

The theorems in `Props/Params.lean`, `Props/Files.lean`, `Props/ParDict.lean` and `Props/Engine.lean` say when these calls do what is documented. Here: what they do in all
other cases, and exact conditions.
-/

set_option autoImplicit false
set_option linter.unusedSectionVars false
set_option linter.unusedSimpArgs false

namespace Pydsge

open Pydsge.Params Pydsge.Files

/-! ## C32: `set_par(name, value, npar=v)` -/

section
variable {K : Type} {D : Decl K}

/-- **C32**, all outcomes: a name that is no parameter is a SyntaxError, a model without priors a TypeError. A vector as long as the prior is taken as the
vector of the estimated parameters (ValueError for others); every other vector, whatever its length, is taken as the full one and
accepted if it reaches to the entry of the parameter (IndexError otherwise). -/
theorem C32_outcome (name : String) (x : K) (v : List K) :
    (name ∉ D.names → setParNpar D name x v = .error .syntaxError) ∧
    (∀ i, D.names.idxOf? name = some i → D.prior = none → setParNpar D name x v = .error .typeError) ∧
    (∀ i p, D.names.idxOf? name = some i → D.prior = some p → v.length = p.arg.length → p.arg.length = p.names.length →
      (name ∉ p.names → setParNpar D name x v = .error .valueError) ∧
      (∀ j, p.names.idxOf? name = some j → setParNpar D name x v = .ok (v.set j x))) ∧
    (∀ i p, D.names.idxOf? name = some i → D.prior = some p → v.length ≠ p.arg.length →
      (i < v.length → setParNpar D name x v = .ok (v.set i x)) ∧
      (v.length ≤ i → setParNpar D name x v = .error .indexError)) := by
  refine ⟨fun h => ?_, fun i hi hp => ?_, fun i p hi hp hl ha => ⟨fun hn => ?_, fun j hj => ?_⟩, fun i p hi hp hl => ⟨fun h => ?_, fun h => ?_⟩⟩
  · simp only [setParNpar, List.idxOf?_eq_none_iff.2 h]
  · simp only [setParNpar, hi, hp]
  · simp only [setParNpar, hi, hp, hl, if_true, List.idxOf?_eq_none_iff.2 hn]
  · have := (idxOf?_get hj).2
    simp only [setParNpar, hi, hp, hl, if_true, hj]
    rw [if_pos (by omega)]
  · simp only [setParNpar, hi, hp, hl, if_false, h, if_true]
  · simp only [setParNpar, hi, hp, hl, if_false, Nat.not_lt.2 h]

/-- **C32**, exact condition for full vectors: the entry of the parameter is the one that is replaced if and only if not all parameters are estimated, or
the parameter has the same position in the prior as in the calibration. -/
theorem C32_full_iff (h : WF D) (p : Prior K) (hp : D.prior = some p) {name : String} {i : Nat} (hi : D.names[i]? = some name) {x y : K}
    {v : List K} (hv : v.length = D.names.length) (hy : v[i]? = some y) (hxy : x ≠ y) :
    setParNpar D name x v = .ok (v.set i x) ↔ p.names.length ≠ D.names.length ∨ p.names[i]? = some name := by
  have hm : name ∈ D.names := List.mem_of_getElem? hi
  obtain ⟨k, hk, hk'⟩ := idxOf?_of_mem hm
  have hki : k = i := by
    obtain ⟨a, ha⟩ := List.getElem?_eq_some_iff.1 hk'
    obtain ⟨b, hb⟩ := List.getElem?_eq_some_iff.1 hi
    exact (h.nodup.getElem_inj_iff).1 (ha.trans hb.symm)
  subst hki
  have hil := (idxOf?_get hk).2
  have ha := h.argLen hp
  obtain ⟨-, -, o3, o4⟩ := C32_outcome (D := D) name x v
  by_cases hl : p.names.length = D.names.length
  · have hvl : v.length = p.arg.length := by omega
    obtain ⟨hn, hj⟩ := o3 k p hk hp hvl ha
    by_cases hmem : name ∈ p.names
    · obtain ⟨j, hj1, hj2⟩ := idxOf?_of_mem hmem
      have hjl := (idxOf?_get hj1).2
      rw [hj j hj1, Except.ok.injEq]
      constructor
      · intro e
        right
        by_cases hjk : j = k
        · subst hjk; exact hj2
        · exfalso
          have h1 : (v.set j x)[k]? = some y := by rw [List.getElem?_set_ne hjk]; exact hy
          rw [e, List.getElem?_set_self (by omega)] at h1
          exact hxy (Option.some.inj h1)
      · rintro (h' | h')
        · exact absurd hl h'
        · obtain ⟨a, ha'⟩ := List.getElem?_eq_some_iff.1 hj2
          obtain ⟨b, hb⟩ := List.getElem?_eq_some_iff.1 h'
          rw [((h.prior p hp).1.getElem_inj_iff).1 (ha'.trans hb.symm)]
    · rw [hn hmem]
      constructor
      · intro e; cases e
      · rintro (h' | h')
        · exact absurd hl h'
        · exact absurd (List.mem_of_getElem? h') hmem
  · refine ⟨fun _ => .inl hl, fun _ => (o4 k p hk hp (by omega)).1 (by omega)⟩

end

/-- **C32**: the hypotheses are met, with both outcomes: in the prior order `b, a` nothing is at its place; a vector that is too long is accepted. -/
theorem C32_outcome_examples :
    let d : Decl Rat := ⟨["a", "b"], [0, 0], [], fun _ => [], some ⟨["b", "a"], [1, 0], []⟩⟩
    let d' : Decl Rat := ⟨["a", "b", "c"], [0, 0, 0], [], fun _ => [], some ⟨["b"], [1], []⟩⟩
    setParNpar d "a" 7 [1, 2] = .ok [1, 7] ∧ setParNpar d' "a" 7 [1, 2, 3] = .ok [7, 2, 3] ∧ setParNpar d' "b" 7 [1] = .ok [7] ∧
    setParNpar d' "a" 7 [1, 2, 3, 4] = .ok [7, 2, 3, 4] ∧ setParNpar d' "c" 7 [1, 2] = .error .indexError ∧
    setParNpar d' "a" 7 [1] = .error .valueError ∧ setParNpar d' "z" 7 [1, 2, 3] = .error .syntaxError := by
  decide +kernel

/-! ## C61: `load_data` -/

section
variable {I K : Type}

/-- **C61**: the reasons why `load_data` raises. Observables without a column are a KeyError, whatever else is wrong; a range that cannot be found raises what pandas
raises; only then missing values are an exception. -/
theorem C61_reasons (loc : List I → Except PyErr (List Nat)) (obs : List String) (st : DataState I K) (df : Frame I K) (e : PyErr)
    (h : (loadData loc obs st df).1 = .error e) :
    ((∃ o ∈ obs, o ∉ df.cols.map Prod.fst) ∧ e = .keyError) ∨
    ((∀ o ∈ obs, o ∈ df.cols.map Prod.fst) ∧ loc df.index = .error e) ∨
    ((∀ o ∈ obs, o ∈ df.cols.map Prod.fst) ∧ ∃ pos, loc df.index = .ok pos ∧ e = .exception) := by
  unfold loadData at h
  split_ifs at h with h1
  · rw [List.any_eq_true] at h1
    obtain ⟨o, h2, h3⟩ := h1
    exact .inl ⟨⟨o, h2, by simpa using h3⟩, (Except.error.inj h).symm⟩
  · have hall : ∀ o ∈ obs, o ∈ df.cols.map Prod.fst := by
      intro o ho
      by_contra hc
      exact h1 (List.any_eq_true.2 ⟨o, ho, by simpa using hc⟩)
    have hidx : (df.select obs).index = df.index := rfl
    simp only [hidx] at h
    cases hl : loc df.index with
    | error e' =>
      simp only [hl, Except.error.injEq] at h
      exact .inr (.inl ⟨hall, by rw [h]⟩)
    | ok pos =>
      simp only [hl] at h
      split_ifs at h
      exact .inr (.inr ⟨hall, pos, rfl, (Except.error.inj h).symm⟩)

/-- **C61**: all three kinds occur. -/
example : (loadData (fun _ => .error .typeError) ["y"] ⟨none, none, none⟩ (⟨[0], [("x", [none])]⟩ : Frame Nat Rat)).1 = .error .keyError ∧
    (loadData (fun _ => .error .typeError) ["x"] ⟨none, none, none⟩ (⟨[0], [("x", [none])]⟩ : Frame Nat Rat)).1 = .error .typeError ∧
    (loadData (fun _ => .ok [0]) ["x"] ⟨none, none, none⟩ (⟨[0], [("x", [none])]⟩ : Frame Nat Rat)).1 = .error .exception := ⟨rfl, rfl, rfl⟩

/-- All columns of a name, from left to right. -/
def Spec.columnsNamed (df : Frame I K) (name : String) : List (List (Option K)) := (df.cols.filter fun c => c.1 = name).map Prod.snd

/-- **C61 (whole outcome).** For every data frame, also with repeated names: if `load_data` succeeds, the data consist of all columns of the first observable, then all columns of
the second one and so on, each with the selected rows, and none of these values is missing. -/
theorem C61_outcome (loc : List I → Except PyErr (List Nat)) (obs : List String) (st : DataState I K) (df d : Frame I K)
    (h : (loadData loc obs st df).1 = .ok d) :
    (∀ o ∈ obs, o ∈ df.cols.map Prod.fst) ∧ ∃ pos, loc df.index = .ok pos ∧
      d.cols = obs.flatMap (fun o => (Spec.columnsNamed df o).map fun col => (o, Spec.at' col pos)) ∧
      (∀ o ∈ obs, ∀ col ∈ Spec.columnsNamed df o, ∀ x ∈ Spec.at' col pos, x ≠ none) := by
  unfold loadData at h
  split_ifs at h with h1
  have hall : ∀ o ∈ obs, o ∈ df.cols.map Prod.fst := by
    intro o ho
    by_contra hc
    exact h1 (List.any_eq_true.2 ⟨o, ho, by simpa using hc⟩)
  have hidx : (df.select obs).index = df.index := rfl
  simp only [hidx] at h
  cases hl : loc df.index with
  | error e' => simp [hl] at h
  | ok pos =>
    simp only [hl] at h
    split_ifs at h with h2
    have hcols : ((df.select obs).rows pos).cols = obs.flatMap (fun o => (Spec.columnsNamed df o).map fun col => (o, Spec.at' col pos)) := by
      simp only [Frame.rows, Frame.select, List.map_flatMap, Spec.columnsNamed, List.map_map]
      congr 1
      funext o
      apply List.map_congr_left
      intro c hc
      have : c.1 = o := by simpa using (List.mem_filter.1 hc).2
      simp only [Function.comp_apply, this, Spec.at']
    obtain rfl := Except.ok.inj h
    refine ⟨hall, pos, rfl, hcols, ?_⟩
    intro o ho col hcol x hx h0
    apply h2
    rw [hcols, List.any_eq_true]
    refine ⟨(o, Spec.at' col pos), List.mem_flatMap.2 ⟨o, ho, List.mem_map_of_mem hcol⟩, List.any_eq_true.2 ⟨x, hx, by rw [h0]; rfl⟩⟩

/-- **C61 (exact condition).** After a call that succeeds the columns of the data are the observables, one each and in the model's order, if and only if the name of every observable
occurs once among the columns of the data frame. (Other columns may repeat names.) -/
theorem C61_exact (loc : List I → Except PyErr (List Nat)) (obs : List String) (st : DataState I K) (df d : Frame I K)
    (h : (loadData loc obs st df).1 = .ok d) :
    d.cols.map Prod.fst = obs ↔ ∀ o ∈ obs, (df.cols.map Prod.fst).count o = 1 := by
  obtain ⟨hall, pos, -, hcols, -⟩ := C61_outcome loc obs st df d h
  have hlen : ∀ o, (Spec.columnsNamed df o).length = (df.cols.map Prod.fst).count o := by
    intro o
    unfold Spec.columnsNamed
    rw [List.length_map, List.count_eq_countP, List.countP_map, List.countP_eq_length_filter]
    congr 1
  have hmap : d.cols.map Prod.fst = obs.flatMap fun o => List.replicate ((df.cols.map Prod.fst).count o) o := by
    rw [hcols, List.map_flatMap]
    congr 1
    funext o
    rw [← hlen, List.map_map, List.eq_replicate_iff]
    exact ⟨by simp, by simp +contextual⟩
  rw [hmap]
  clear hmap hcols h
  have hge : ∀ o ∈ obs, 1 ≤ (df.cols.map Prod.fst).count o := fun o ho => List.count_pos_iff.2 (hall o ho)
  clear hall
  clear hlen
  have key : ∀ l : List String, (∀ o ∈ l, 1 ≤ (df.cols.map Prod.fst).count o) →
      l.length ≤ (l.flatMap fun o => List.replicate ((df.cols.map Prod.fst).count o) o).length ∧
      ((l.flatMap fun o => List.replicate ((df.cols.map Prod.fst).count o) o).length = l.length →
        ∀ o ∈ l, (df.cols.map Prod.fst).count o = 1) := by
    intro l
    induction l with
    | nil => simp
    | cons a l ih =>
      intro hge
      have h1 := hge a List.mem_cons_self
      obtain ⟨h2, h3⟩ := ih (fun o ho => hge o (List.mem_cons_of_mem _ ho))
      simp only [List.flatMap_cons, List.length_append, List.length_replicate, List.length_cons]
      refine ⟨by omega, fun he o ho => ?_⟩
      rcases List.mem_cons.1 ho with rfl | ho
      · omega
      · exact h3 (by omega) o ho
  constructor
  · intro he
    exact (key obs hge).2 (by rw [he])
  · intro he
    clear hge key
    induction obs with
    | nil => rfl
    | cons a l ih =>
      rw [List.flatMap_cons, he a List.mem_cons_self, ih (fun o ho => he o (List.mem_cons_of_mem _ ho))]
      rfl

/-- **C61 (outcome)**, hypotheses: both cases occur, with a repeated column that is no observable, and with a repeated observable. -/
example : (loadData (fun _ => .ok [0]) ["x"] ⟨none, none, none⟩ (⟨[0], [("y", [none]), ("x", [some 1]), ("y", [some 2])]⟩ : Frame Nat Rat)).1 =
      .ok ⟨[0], [("x", [some 1])]⟩ ∧
    (loadData (fun _ => .ok [0]) ["y", "x"] ⟨none, none, none⟩ (⟨[0], [("y", [some 3]), ("x", [some 1]), ("y", [some 2])]⟩ : Frame Nat Rat)).1 =
      .ok ⟨[0], [("y", [some 3]), ("y", [some 2]), ("x", [some 1])]⟩ := ⟨rfl, rfl⟩

end

/-! ## C151: `get_par(v, full=False, nsamples=n)` for arrays -/

section
variable {K PP VV HX LS TT QQ : Type} [Field K] [LinearOrder K] {S : Solver K PP VV HX LS TT QQ} {D : Decl K} {dr : Draws K} {g : GenArgs}
  {ob : Obj K PP VV HX LS TT QQ}

/-- **C151 (refuted)** for arrays: with two or more estimated parameters, `get_par(v, full=False, nsamples=n)` raises for every vector of estimated parameters and every
`n > 1` (the array is compared to names). -/
theorem C151_array_refuted (p : Prior K) (hp : D.prior = some p) (v₀ : List K) (hv : ob.a.par = some v₀)
    (hd : p.arg.length ≠ D.parFix.length) (v : List K) (hl : v.length = p.arg.length) (h2 : 2 ≤ p.arg.length) (n : Nat) (hn : 1 < n) :
    getPar S D dr g ob (.vec v) none false n = (ob, .error .valueError) := by
  unfold getPar
  simp only [startPars_some hv, hp, hl, hd, if_false, if_true, candPar, gt_iff_lt, hn, Bool.false_eq_true]
  rw [if_pos (by omega)]

/-- **C151 (partial)** for arrays: with one estimated parameter the vectors are scattered as they should be. -/
theorem C151_array_partial (p : Prior K) (hp : D.prior = some p) (v₀ : List K) (hv : ob.a.par = some v₀)
    (hd : p.arg.length ≠ D.parFix.length) (x : K) (h1 : p.arg.length = 1) (n : Nat) (hn : 1 < n) (hz : Spec.Shaped (dr.randn n 1) n 1) :
    ∃ rows, getPar S D dr g ob (.vec [x]) none false n = (ob, .ok (.mat rows)) ∧ Spec.Scattered n [x] (dr.randn n 1) rows := by
  obtain ⟨rows, e1, e2⟩ := scattered_of (QQ := QQ) n [x] (dr := dr) hz
  refine ⟨rows, ?_, e2⟩
  unfold getPar
  simp only [startPars_some hv, hp, h1, candPar, gt_iff_lt, hn, Bool.false_eq_true, if_false, if_true, List.length_singleton, lt_irrefl, e1]
  rw [if_neg (by rw [← h1]; exact hd)]

end

/-- **C151**: the hypotheses are met by a model with one estimated parameter out of two. -/
example : ∃ rows, getPar ParEx.solver ⟨["a", "b"], [3, 4], [], fun _ => [], some ⟨["b"], [1], []⟩⟩ { ParEx.draws with randn := fun n m => List.replicate n (List.replicate m 1) }
    ⟨none, none, false⟩ { ParEx.fresh with a := { ParEx.fresh.a with par := some [3, 4] } } (.vec [2]) none false 2 =
    ({ ParEx.fresh with a := { ParEx.fresh.a with par := some [3, 4] } }, .ok (.mat rows)) := by
  obtain ⟨rows, e, -⟩ := C151_array_partial (S := ParEx.solver) (D := ⟨["a", "b"], [3, 4], [], fun _ => [], some ⟨["b"], [1], []⟩⟩)
    (dr := { ParEx.draws with randn := fun n m => List.replicate n (List.replicate m 1) }) (g := ⟨none, none, false⟩)
    (ob := { ParEx.fresh with a := { ParEx.fresh.a with par := some [3, 4] } }) ⟨["b"], [1], []⟩ rfl [3, 4] rfl (by decide) 2 rfl 2 (by omega)
    ⟨rfl, by decide⟩
  exact ⟨rows, e⟩

/-! ## C05: `t_func` with `k_max = 0` -/

section
open Matrix Pydsge.Engine Pydsge.Spec Pydsge.Tools Pydsge.GenSys
variable {E ν ε o K : Type} [Fintype E] [Fintype ν] [Fintype ε] [Fintype o]
  [DecidableEq E] [DecidableEq ν] [DecidableEq ε] [Field K] [LinearOrder K] [IsStrictOrderedRing K]
variable {H z p : Type} [DecidableEq H] [Fintype H] [Fintype z] [Fintype p] [DecidableEq z] [DecidableEq p]
variable {tol : K} {m : Input E ν ε o K} [DecidablePred (inall tol m)] {lay : Layout tol m H z p}
  {orc : Oracle (Rows E H ε) (z ⊕ ε) p K} {lMax : Nat} {sched : Nat → List Nat} {mod : Model z ε p o K}

/-- **C05**, all outcomes of `k_max = 0`: the transition is the linear one, flag 0, if the constraint value of the linear path (`v 2 j 0` in period `j`) is above
the bound in all periods up to `l_max`; otherwise the search leaves the tables. -/
theorem C05_kmax_zero_outcome (h : Succeeded lay orc lMax 0 sched mod) (st : p ⊕ z → K) (eps : ε → K) :
    ∃ v, Describes mod.tables mod.ff mod.xbar (q0Of st eps) lMax 0 v ∧
      ((∀ j ≤ lMax, mod.xbar < v 2 j 0) → ∃ r, tFunc mod st eps .none false = .ok r ∧ tFunc mod st eps .none true = .ok r ∧
        r.l = 0 ∧ r.k = 0 ∧ r.flag = 0) ∧
      ((∃ j ≤ lMax, v 2 j 0 ≤ mod.xbar) → tFunc mod st eps .none false = .error .oob) := by
  obtain ⟨c, hm⟩ := genSys_ok h.perm h.gen
  obtain ⟨M', hS⟩ := hm.eng
  have := h.states
  obtain ⟨v, hv⟩ := describes_exists hS mod.xbar (q0Of st eps)
  refine ⟨v, by rw [hm.ff]; exact hv, fun hn => ?_, fun ⟨j, hj, hb⟩ => ?_⟩
  · have hf := (findLk_one_column (xbar := mod.xbar) (describes_reads hS hv) (by omega)).1 (fun j hj => hn j (by omega))
    have h1 := tFunc_find hm st eps hf (by omega) (by omega)
    have h2 := tFunc_pair hm st eps (Nat.zero_le lMax) (Nat.zero_le 0)
    have h3 : tFunc mod st eps .none true = tFunc mod st eps (.pair (0 : Nat) (0 : Nat)) false := by
      unfold tFunc tFuncRaw
      simp [setLK]
    exact ⟨_, h1, h3.trans h2, rfl, rfl, rfl⟩
  · have hf := (findLk_one_column (xbar := mod.xbar) (describes_reads hS hv) (by omega)).2
      (fun hn => absurd (hn j (by omega)) (not_lt.2 hb))
    have e : tFuncJit mod.tables mod.xbar (q0Of st eps) (some (-1, -1)) = .error .oob := by
      unfold tFuncJit
      simp only [if_true, hS.shapeL, hS.shapeK]
      rw [hf]
    have hz : ¬ (Fintype.card z = 0 ∧ Fintype.card p ≠ 0) := by
      have := Fintype.card_ne_zero (α := z); tauto
    unfold tFunc tFuncRaw
    rw [if_neg hz]
    simp only [setLK, Bool.false_eq_true, if_false]
    unfold q0Of at e
    rw [e]

end

end Pydsge
