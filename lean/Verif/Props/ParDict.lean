import Verif.Model.ParDict
import Verif.Props.ParSets
import Mathlib.Algebra.Order.Field.Basic

/-!
# C151: several copies of a parameter vector (`get_par(nsamples=n)`); C152: dictionaries of parameters (`get_par(asdict=True)`)
-/

set_option autoImplicit false
set_option linter.unusedSectionVars false
set_option linter.unusedSimpArgs false

namespace Pydsge

open Pydsge.Params

variable {K PP VV HX LS TT QQ : Type}

section
variable [Field K] [LinearOrder K] {S : Solver K PP VV HX LS TT QQ} {D : Decl K} {dr : Draws K} {g : GenArgs} {ob : Obj K PP VV HX LS TT QQ}

/-! ## C151 -/

/-- The random numbers form an array of the requested shape. -/
def Spec.Shaped (m : List (List K)) (r c : Nat) : Prop := m.length = r ∧ ∀ z ∈ m, z.length = c

/-- Entry `j` of row `i`. -/
def Spec.cell (m : List (List K)) (i j : Nat) : Option K := (m[i]?).bind fun r => r[j]?

/-- Array `rows` has a row for each of `n` samples; entry `j` of each row is the candidate times one plus a thousandth of a random number. -/
def Spec.Scattered (n : Nat) (w : List K) (z rows : List (List K)) : Prop :=
  Spec.Shaped rows n w.length ∧ ∀ i j x y, i < n → w[j]? = some x → Spec.cell z i j = some y → Spec.cell rows i j = some (x * (1 + y / 1000))

theorem scattered_of (n : Nat) (w : List K) (hz : Spec.Shaped (dr.randn n w.length) n w.length) :
    ∃ rows, scatter (QQ := QQ) dr n (.vec w) = .mat rows ∧ Spec.Scattered n w (dr.randn n w.length) rows := by
  refine ⟨_, rfl, ⟨by simp [hz.1], ?_⟩, ?_⟩
  · intro r hr
    obtain ⟨z, h1, rfl⟩ := List.mem_map.1 hr
    simp [hz.2 z h1]
  · intro i j x y hi hx hy
    simp only [Spec.cell, Option.bind_eq_some_iff] at hy
    obtain ⟨z, h1, h2⟩ := hy
    simp only [Spec.cell, List.getElem?_map, h1, Option.map_some, Option.bind_some, List.getElem?_zipWith, hx, h2, noisy]
    congr 2
    ring

/-- **C151 (partial).** `get_par(set, full=False, nsamples=n)` with `n > 1` returns `n` vectors, each of which is the documented candidate, with
every entry multiplied by one plus a thousandth of its own random number.

Missing: `full=True` (`C151_full_refuted`) and that the vectors differ (`C151_zero_refuted`). -/
theorem C151_scattered_partial (h : WF D) (p : Prior K) (hp : D.prior = some p) (hf : Fits p ob) (s : String) (hs : s ∈ docSets)
    (hnot : s ∉ D.names ∧ s ∉ D.pfNames) (v₀ : List K) (hv : ob.a.par = some v₀) (n : Nat) (hn : 1 < n)
    (hz : Spec.Shaped (dr.randn n p.names.length) n p.names.length) (ob' : Obj K PP VV HX LS TT QQ) (r : ParVal K QQ)
    (hg : getPar S D dr g ob (.str s) none false n = (ob', .ok r)) :
    ∃ w rows, r = .mat rows ∧ (∀ j : Nat, w[j]? = Spec.DocValue D p ob s j) ∧ w.length = p.names.length ∧
      Spec.Scattered n w (dr.randn n p.names.length) rows := by
  have hc : s ≠ "cov_mat" ∧ s ≠ "best" ∧ isSample s = false := by
    refine ⟨?_, ?_, ?_⟩
    · rintro rfl; revert hs; decide
    · rintro rfl; revert hs; decide
    · revert hs
      simp only [docSets, List.mem_cons, List.not_mem_nil, or_false]
      rintro (rfl | rfl | rfl | rfl | rfl | rfl | rfl) <;> decide
  unfold getPar at hg
  simp only [startPars_some hv, List.idxOf?_eq_none_iff.2 hnot.1, List.idxOf?_eq_none_iff.2 hnot.2, hc.1, hc.2.1, if_false] at hg
  rcases hns : namedSet D dr ob s n with ⟨ob1, res⟩
  cases res with
  | error e => simp [hns] at hg
  | ok c =>
    obtain ⟨w, rfl, hwl, hwv⟩ := namedSet_doc h p hp ob hf s hs n hns
    simp only [hns, candPar, hc.2.2, gt_iff_lt, hn, if_true, if_false, Bool.false_eq_true, Prod.mk.injEq, Except.ok.injEq] at hg
    rw [← hwl] at hz ⊢
    obtain ⟨rows, h1, h2⟩ := scattered_of (QQ := QQ) n w hz
    exact ⟨w, rows, by rw [← hg.2, h1], hwv, rfl, h2⟩

/-- **C151 (partial)**, without a name: copies of the current values of the estimated parameters. -/
theorem C151_current_partial (h : WF D) (p : Prior K) (hp : D.prior = some p) (v : List K) (hv : ob.a.par = some v)
    (hl : v.length = D.names.length) (n : Nat) (hn : 1 < n) (hz : Spec.Shaped (dr.randn n p.names.length) n p.names.length) :
    ∃ w rows, getPar S D dr g ob .none none false n = (ob, .ok (.mat rows)) ∧ w.length = p.names.length ∧
      (∀ (i j : Nat) (s : String), D.names[i]? = some s → p.names[j]? = some s → w[j]? = v[i]?) ∧
      Spec.Scattered n w (dr.randn n p.names.length) rows := by
  have hb : ∀ i ∈ p.arg, i < v.length := by rw [hl]; exact h.bound hp
  obtain ⟨w, hw, hwl, hwg⟩ := fancyGet_ok v p.arg hb
  have hwl' : w.length = p.names.length := by rw [hwl, h.argLen hp]
  rw [← hwl'] at hz ⊢
  obtain ⟨rows, h1, h2⟩ := scattered_of (QQ := QQ) n w hz
  refine ⟨w, rows, ?_, rfl, ?_, h2⟩
  · unfold getPar
    simp only [startPars_some hv, takePrior, hp, hw, candPar, gt_iff_lt, hn, if_true, if_false, Bool.false_eq_true, h1]
  · intro i j s hi hj
    obtain ⟨_, harg, _⟩ := h.prior p hp
    obtain ⟨hi', hi''⟩ := List.getElem?_eq_some_iff.1 hi
    have : p.arg[j]? = some i := by
      rw [harg, List.getElem?_map, hj, Option.map_some, ← hi'', h.nodup.idxOf_getElem i hi']
    exact hwg j i this

/-- Two of the vectors agree in an entry exactly if the candidate is zero there or the random numbers are equal. -/
theorem C151_equal_iff [IsStrictOrderedRing K] (n : Nat) (w : List K) (z rows : List (List K)) (hs : Spec.Scattered n w z rows)
    (i k j : Nat) (x y y' : K) (hi : i < n) (hk : k < n) (hx : w[j]? = some x) (hy : Spec.cell z i j = some y) (hy' : Spec.cell z k j = some y') :
    Spec.cell rows i j = Spec.cell rows k j ↔ x = 0 ∨ y = y' := by
  rw [hs.2 i j x y hi hx hy, hs.2 k j x y' hk hx hy', Option.some.injEq]
  constructor
  · intro e
    by_cases h0 : x = 0
    · exact .inl h0
    · have := mul_left_cancel₀ h0 e
      have h1 : y / 1000 = y' / 1000 := add_left_cancel this
      have : (1000 : K) ≠ 0 := by norm_num
      exact .inr ((div_left_inj' this).1 h1)
  · rintro (rfl | rfl)
    · simp
    · rfl

/-- Entries keep their sign as long as no random number is below minus one thousand. -/
theorem C151_sign [IsStrictOrderedRing K] (n : Nat) (w : List K) (z rows : List (List K)) (hs : Spec.Scattered n w z rows)
    (i j : Nat) (x y : K) (hi : i < n) (hx : w[j]? = some x) (hy : Spec.cell z i j = some y) (h1 : -1000 < y) :
    ∃ u, Spec.cell rows i j = some u ∧ (0 < u ↔ 0 < x) ∧ (u < 0 ↔ x < 0) := by
  refine ⟨_, hs.2 i j x y hi hx hy, ?_, ?_⟩
  all_goals
    have hpos : (0 : K) < 1 + y / 1000 := by
      have h2 : (-1 : K) < y / 1000 := by
        rw [lt_div_iff₀ (by norm_num)]
        linarith
      linarith
  · exact mul_pos_iff_of_pos_right hpos
  · constructor
    · intro hu
      by_contra hx'
      exact absurd (mul_nonneg (not_lt.1 hx') hpos.le) (not_le.2 hu)
    · intro hu
      exact mul_neg_of_neg_of_pos hu hpos

/-- **C151 (refuted)**: where the candidate is zero there is no noise; whatever the random numbers, all vectors have the same entry. -/
theorem C151_zero_refuted (n : Nat) (w : List K) (z rows : List (List K)) (hs : Spec.Scattered n w z rows) (j : Nat)
    (hx : w[j]? = some 0) (hz : Spec.Shaped z n w.length) : ∀ i < n, Spec.cell rows i j = some 0 := by
  intro i hi
  obtain ⟨hj, _⟩ := List.getElem?_eq_some_iff.1 hx
  have h1 : i < z.length := by rw [hz.1]; exact hi
  have h2 : j < (z[i]).length := by rw [hz.2 _ (List.getElem_mem h1)]; exact hj
  rw [hs.2 i j 0 (z[i][j]) hi hx (by simp [Spec.cell, h1, h2])]
  simp

/-- **C151 (refuted)** for `full=True`: the number of samples is ignored, one single vector is returned. -/
theorem C151_full_refuted (h : WF D) (p : Prior K) (hp : D.prior = some p) (hf : Fits p ob) (s : String) (hs : s ∈ docSets)
    (hnot : s ∉ D.names ∧ s ∉ D.pfNames) (v₀ : List K) (hv : ob.a.par = some v₀) (n : Nat) (ob' : Obj K PP VV HX LS TT QQ) (r : ParVal K QQ)
    (hg : getPar S D dr g ob (.str s) none true n = (ob', .ok r)) : ∃ v, r = .vec v := by
  obtain ⟨_, v, h1, _⟩ := C89_parameter_sets_partial h p hp hf s hs hnot v₀ hv n ob' r hg
  exact ⟨v, h1⟩

/-! ## C152 -/

theorem dictZip_at {β : Type} (names : List String) (vals : List β) (hn : names.Nodup) (i : Nat) (s : String) (h : names[i]? = some s)
    (hv : i < vals.length) : dictZip names vals s = vals[i]? := by
  obtain ⟨hi, he⟩ := List.getElem?_eq_some_iff.1 h
  have hz : i < (names.zip vals).length := by simp [hi, hv]
  unfold dictZip
  rw [List.getElem?_eq_getElem hv]
  cases hf : (names.zip vals).reverse.find? fun q => q.1 == s with
  | none =>
    rw [List.find?_eq_none] at hf
    have := hf (names.zip vals)[i] (by rw [List.mem_reverse]; exact List.getElem_mem hz)
    simp [List.getElem_zip, he] at this
  | some q =>
    have h1 := List.find?_some hf
    have h2 := List.mem_of_find?_eq_some hf
    rw [List.mem_reverse] at h2
    obtain ⟨k, hk, rfl⟩ := List.getElem_of_mem h2
    simp only [List.getElem_zip, beq_iff_eq] at h1
    have hk' : k < names.length := by simp at hk; exact hk.1
    have : k = i := (List.Nodup.getElem_inj_iff hn).1 (h1.trans he.symm)
    subst this
    simp [List.getElem_zip]

theorem dictZip_get {β : Type} (names : List String) (vals : List β) (hn : names.Nodup) (i : Nat) (s : String) (h : names[i]? = some s)
    (hl : names.length = vals.length) : dictZip names vals s = vals[i]? :=
  dictZip_at names vals hn i s h (by have := (List.getElem?_eq_some_iff.1 h).1; omega)

/-- names without a value -/
theorem dictZip_short {β : Type} (names : List String) (vals : List β) (hn : names.Nodup) (i : Nat) (s : String) (h : names[i]? = some s)
    (hv : vals.length ≤ i) : dictZip names vals s = none := by
  obtain ⟨hi, he⟩ := List.getElem?_eq_some_iff.1 h
  unfold dictZip
  rw [Option.map_eq_none_iff, List.find?_eq_none]
  intro q hq hs
  rw [List.mem_reverse] at hq
  obtain ⟨k, hk, rfl⟩ := List.getElem_of_mem hq
  simp only [List.getElem_zip, beq_iff_eq] at hs
  have hk' : k < names.length ∧ k < vals.length := by simp at hk; exact hk
  have : k = i := (List.Nodup.getElem_inj_iff hn (hi := hk'.1)).1 (hs.trans he.symm)
  omega

theorem dictZip_none {β : Type} (names : List String) (vals : List β) (s : String) (h : s ∉ names) : dictZip names vals s = none := by
  unfold dictZip
  rw [Option.map_eq_none_iff, List.find?_eq_none]
  rintro ⟨a, b⟩ hq he
  rw [List.mem_reverse] at hq
  simp only [beq_iff_eq] at he
  exact h (he ▸ (List.of_mem_zip hq).1)

/-- The dictionary `d` gives each name its (rounded) value and has no other keys. -/
def Spec.Names (rnd : K → K) (names : List String) (v : List K) (d : String → Option (Entry K)) : Prop :=
  (∀ (i : Nat) (s : String), names[i]? = some s → ∃ x, v[i]? = some x ∧ d s = some (.val (rnd x))) ∧ ∀ s, s ∉ names → d s = none

theorem names_dict (rnd : K → K) (names : List String) (v : List K) (hn : names.Nodup) (hl : names.length = v.length) :
    Spec.Names rnd names v (dictZip names (v.map fun x => .val (rnd x))) := by
  refine ⟨?_, fun s hs => dictZip_none _ _ _ hs⟩
  intro i s hi
  obtain ⟨h1, _⟩ := List.getElem?_eq_some_iff.1 hi
  have h2 : i < v.length := by omega
  refine ⟨v[i], List.getElem?_eq_getElem h2, ?_⟩
  rw [dictZip_get _ _ hn i s hi (by simp [hl]), List.getElem?_map, List.getElem?_eq_getElem h2, Option.map_some]

/-- **C152 (partial).** If `get_par(x)` returns one vector, `get_par(x, asdict=True)` returns two dictionaries: the first gives each parameter its
entry of that vector, rounded, the second gives each function of parameters its value at that vector, rounded.

Missing: samples (`C152_samples_refuted`). -/
theorem C152_named_partial (rnd : K → K) (h : WF D) (hpf : D.pfNames.Nodup) (dummy : Dummy K) (n : Nat) (ob' : Obj K PP VV HX LS TT QQ)
    (v : List K) (hl : v.length = D.names.length) (hfl : (D.pf v).length = D.pfNames.length)
    (hg : getPar S D dr g ob dummy none true n = (ob', .ok (.vec v))) :
    ∃ d f, getDict rnd S D dr g ob dummy none true n = (ob', .ok (.two d f)) ∧ Spec.Names rnd D.names v d ∧ Spec.Names rnd D.pfNames (D.pf v) f := by
  refine ⟨_, _, ?_, names_dict rnd D.names v h.nodup hl.symm, names_dict rnd D.pfNames (D.pf v) hpf hfl.symm⟩
  unfold getDict
  simp only [if_true, hg]

/-- `np.array(pars_str)[self.prior_arg]` are the names of the estimated parameters -/
theorem prior_names (h : WF D) (p : Prior K) (hp : D.prior = some p) : fancyGet D.names p.arg = .ok p.names := by
  obtain ⟨hn, harg, hmem⟩ := h.prior p hp
  obtain ⟨u, h1, h2, h3⟩ := fancyGet_ok D.names p.arg (h.bound hp)
  rw [h1]
  congr 1
  apply List.ext_getElem?
  intro j
  by_cases hj : j < p.names.length
  · have hi : D.names.idxOf p.names[j] < D.names.length := List.idxOf_lt_length_iff.2 (hmem _ (List.getElem_mem hj))
    rw [h3 j (D.names.idxOf p.names[j]) (by rw [harg, List.getElem?_map, List.getElem?_eq_getElem hj, Option.map_some]),
      List.getElem?_eq_getElem hi, List.getElem_idxOf hi, List.getElem?_eq_getElem hj]
  · have hu : u.length = p.names.length := by rw [h2, h.argLen hp]
    rw [List.getElem?_eq_none (l := u) (by omega), List.getElem?_eq_none (l := p.names) (by omega)]

/-- **C152 (partial)**, estimated parameters only (`full=False`), whatever number of samples is asked for. -/
theorem C152_estimated_partial (rnd : K → K) (h : WF D) (p : Prior K) (hp : D.prior = some p) (dummy : Dummy K) (n : Nat)
    (hs : ∀ s, dummy = .str s → s ∉ ["prior", "post", "posterior"]) (ob' : Obj K PP VV HX LS TT QQ) (w : List K) (hl : w.length = p.names.length)
    (hg : getPar S D dr g ob dummy none false 1 = (ob', .ok (.cand (.vec w)))) :
    ∃ d, getDict rnd S D dr g ob dummy none false n = (ob', .ok (.one d)) ∧ Spec.Names rnd p.names w d := by
  obtain ⟨hn, harg, hmem⟩ := h.prior p hp
  have hnames := prior_names h p hp
  refine ⟨_, ?_, names_dict rnd p.names w hn hl.symm⟩
  unfold getDict
  have : dummy.isSample = false := by
    cases dummy with
    | str s => simpa [Dummy.isSample, isSample] using hs s rfl
    | none => rfl
    | vec v => rfl
  simp only [Bool.false_eq_true, if_false, this, hg, hp, hnames]

/-- **C152 (refuted)**, samples with `full=True`: the call fails with an unpacking error, unless the number of samples is the number of parameters.
That includes the default of one sample. -/
theorem C152_samples_refuted (rnd : K → K) (dummy : Dummy K) (n : Nat) (hn : n ≠ D.names.length) (ob' : Obj K PP VV HX LS TT QQ)
    (rows : List (List K)) (hl : rows.length = n) (hg : getPar S D dr g ob dummy none true n = (ob', .ok (.mat rows))) :
    getDict rnd S D dr g ob dummy none true n = (ob', .error .valueError) := by
  unfold getDict
  simp only [if_true, hg, pfRows, hl, hn, ne_eq, not_false_iff]

/-- **C152 (refuted)**, samples whose number is the number of parameters: parameter number `i` is given the whole sample number `i`. -/
theorem C152_square_refuted (rnd : K → K) (h : WF D) (dummy : Dummy K) (ob' : Obj K PP VV HX LS TT QQ)
    (rows : List (List K)) (hl : rows.length = D.names.length)
    (hg : getPar S D dr g ob dummy none true D.names.length = (ob', .ok (.mat rows))) :
    ∃ d f, getDict rnd S D dr g ob dummy none true D.names.length = (ob', .ok (.two d f)) ∧
      ∀ (i : Nat) (s : String) (v : List K), D.names[i]? = some s → rows[i]? = some v → d s = some (.row (v.map rnd)) := by
  have hf : ∃ fs, pfRows D rows = .ok fs := by
    unfold pfRows
    rw [if_neg (by simp [hl])]
    exact ⟨_, rfl⟩
  obtain ⟨fs, hf⟩ := hf
  refine ⟨dictZip D.names (rows.map fun v => .row (v.map rnd)), dictZip D.pfNames (fs.map fun v => .row (v.map rnd)), ?_, ?_⟩
  · unfold getDict
    simp only [if_true, hg, hf]
  · intro i s v hi hv
    rw [dictZip_get _ _ h.nodup i s hi (by simp [hl]), List.getElem?_map, hv, Option.map_some]

/-- **C152 (refuted)**, samples of the estimated parameters only (`full=False`): no error for any number of samples, and estimated parameter number `i` is given
the whole sample number `i`; parameters for which there is no such sample are missing. -/
theorem C152_estimated_samples_refuted (rnd : K → K) (h : WF D) (p : Prior K) (hp : D.prior = some p) (s : String)
    (hs : s ∈ ["prior", "post", "posterior"]) (n : Nat) (ob' : Obj K PP VV HX LS TT QQ) (rows : List (List K))
    (hg : getPar S D dr g ob (.str s) none false n = (ob', .ok (.cand (.mat rows)))) :
    ∃ d, getDict rnd S D dr g ob (.str s) none false n = (ob', .ok (.one d)) ∧
      ∀ (i : Nat) (x : String), p.names[i]? = some x → d x = (rows[i]?).map fun v => .row (v.map rnd) := by
  obtain ⟨hn, -, -⟩ := h.prior p hp
  refine ⟨dictZip p.names (rows.map fun v => .row (v.map rnd)), ?_, ?_⟩
  · have : (Dummy.str s : Dummy K).isSample = true := by
      simpa [Dummy.isSample, isSample] using hs
    unfold getDict
    simp only [Bool.false_eq_true, if_false, this, if_true, hg, hp, prior_names h p hp]
  · intro i x hi
    by_cases hl : i < rows.length
    · rw [dictZip_at _ _ hn i x hi (by simpa using hl), List.getElem?_map]
    · rw [dictZip_short _ _ hn i x hi (by simpa using hl), List.getElem?_eq_none (by omega), Option.map_none]

/-- **C152 (refuted)**, models without a prior: with `full=False` the keys are arrays, and the call fails whenever it would succeed without `asdict`. -/
theorem C152_no_prior_refuted (rnd : K → K) (hp : D.prior = none) (dummy : Dummy K) (hs : dummy.isSample = false) (n : Nat)
    (ob' : Obj K PP VV HX LS TT QQ) (c : Cand K) (hg : getPar S D dr g ob dummy none false 1 = (ob', .ok (.cand c))) :
    getDict rnd S D dr g ob dummy none false n = (ob', .error .typeError) := by
  unfold getDict
  simp only [Bool.false_eq_true, if_false, hs, hg, hp]

end

/-! ## Examples -/

/-- `C151`: three copies of the prior mean `[1/2, 1/3]` with random numbers that are all one; `full=True` gives one vector. -/
theorem C151_hypotheses_met :
    Spec.Shaped (ParEx.draws.randn 3 2) 3 2 ∧
    (getPar ParEx.solver ParEx.decl ParEx.draws ⟨none, none, false⟩ ParEx.solved (.str "prior_mean") none false 3).2 =
      .ok (.mat (List.replicate 3 [1001 / 2000, 1001 / 3000])) ∧
    (getPar ParEx.solver ParEx.decl ParEx.draws ⟨none, none, false⟩ ParEx.solved (.str "prior_mean") none true 3).2 =
      .ok (.vec [0, 1/3, 1/2]) ∧
    (getPar ParEx.solver ParEx.decl ParEx.draws ⟨none, none, false⟩ { ParEx.solved with modeX := some [0, 4] } (.str "mode") none false 2).2 =
      .ok (.mat (List.replicate 2 [0, 1001 / 250])) := by
  refine ⟨⟨rfl, ?_⟩, ?_, ?_, ?_⟩
  · simp [ParEx.draws]
  all_goals decide +kernel

/-- two draws of the two estimated parameters, and a model without a prior -/
theorem C152_samples_hypotheses_met :
    (getPar ParEx.solver ParEx.decl ParEx.draws ⟨none, none, false⟩ ParEx.solved (.str "prior") none false 1).2 = .ok (.cand (.mat [[0, 0]])) ∧
    (match (getDict id ParEx.solver ParEx.decl ParEx.draws ⟨none, none, false⟩ ParEx.solved (.str "prior") none false 1).2 with
      | .ok (.one d) => (ParEx.decl.prior.map fun p => p.names.map d)
      | _ => none) = some [some (.row [0, 0]), none] ∧
    (getPar ParEx.solver { ParEx.decl with prior := none } ParEx.draws ⟨none, none, false⟩ ParEx.solved (.str "calib") none false 1).2 =
      .ok (.cand (.wrapped [0, 1/2, 1/4])) ∧
    (match (getDict id ParEx.solver { ParEx.decl with prior := none } ParEx.draws ⟨none, none, false⟩ ParEx.solved (.str "calib") none false 1).2 with
      | .error .typeError => true
      | _ => false) = true := by
  refine ⟨?_, ?_, ?_, ?_⟩ <;> decide +kernel

/-- `C152`: the calibration as a dictionary, and the failure for one draw from the prior. -/
theorem C152_hypotheses_met :
    (getPar ParEx.solver ParEx.decl ParEx.draws ⟨none, none, false⟩ ParEx.solved (.str "calib") none true 1).2 = .ok (.vec [0, 1/2, 1/4]) ∧
    (match (getDict id ParEx.solver ParEx.decl ParEx.draws ⟨none, none, false⟩ ParEx.solved (.str "calib") none true 1).2 with
      | .ok (.two d f) => (d "b", d "f", f "f")
      | _ => (none, none, none)) = (some (.val (1/2)), none, some (.val (3/4))) ∧
    (getPar ParEx.solver ParEx.decl ParEx.draws ⟨none, none, false⟩ ParEx.solved (.str "prior") none true 1).2 = .ok (.mat [[0, 0, 0]]) ∧
    (match (getDict id ParEx.solver ParEx.decl ParEx.draws ⟨none, none, false⟩ ParEx.solved (.str "prior") none true 1).2 with
      | .error .valueError => true
      | _ => false) = true := by
  refine ⟨?_, ?_, ?_, ?_⟩ <;> decide +kernel

end Pydsge
