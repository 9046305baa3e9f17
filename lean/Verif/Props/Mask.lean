import Verif.Model.Mask
import Verif.Model.Slices

/-!
# C110, C111, C112: masks and states for shocks
-/

set_option autoImplicit false
set_option linter.unusedSectionVars false
set_option linter.unusedSimpArgs false

namespace Pydsge

open Pydsge.Tools Pydsge.Mask

variable {K : Type} [Field K] [LinearOrder K]

/-- What the documentation of `simulate` says a mask does: `NaN` keeps the shock, anything else replaces it. -/
def Spec.replaced (mask : Option K) (e : K) : K := mask.getD e

/-- **C110** (holds for masks whose entries are 0 or NaN, or where the operation returns its first argument). -/
theorem C110_mask_replaces_partial (mask : Option K) (e : K) :
    ((∀ x, mask = some x → x = 0) → applyMask (· * ·) mask e = Spec.replaced mask e) ∧
    applyMask (fun x _ => x) mask e = Spec.replaced mask e := by
  constructor
  · intro h
    cases mask with
    | none => rfl
    | some x => simp [applyMask, Spec.replaced, h x rfl]
  · cases mask <;> rfl

/-- **C110** refuted: with the default operation a mask `x` multiplies the shock: every shock `e` and mask `x ≠ 0` with `e ≠ 1`. -/
theorem C110_mask_replaces_refuted :
    (∀ x e : K, x ≠ 0 → e ≠ 1 → applyMask (· * ·) (some x) e ≠ Spec.replaced (some x) e) ∧
    applyMask (· * ·) (some (1 : Rat)) 2 ≠ Spec.replaced (some 1) 2 := by
  refine ⟨fun x e hx he h => ?_, by decide +kernel⟩
  simp only [applyMask, Spec.replaced, Option.getD_some] at h
  exact he (mul_left_cancel₀ hx (by rw [h, mul_one]))

/-- Assignments `mask[name] = values` in the order of the program; the last one for a name counts. -/
def Spec.assigned (as : List (String × (Nat → Option K))) (name : String) (i : Nat) : Option K :=
  match as.reverse.find? (fun a => a.1 = name) with
  | some a => a.2 i
  | none => none

theorem zipDict_get {keys values : List String} (hn : keys.Nodup) (hl : keys.length = values.length) {i : Nat} {k : String}
    (hk : keys[i]? = some k) : zipDict keys values k = values[i]? := by
  unfold zipDict
  have hi : i < keys.length := (List.getElem?_eq_some_iff.1 hk).1
  have hv : values[i]? = some values[i] := List.getElem?_eq_getElem (by omega)
  rw [hv]
  rw [List.lookup_eq_some_iff]
  have hz : (keys.zip values)[i]? = some (k, values[i]) := by
    rw [List.getElem?_zip_eq_some]; exact ⟨hk, hv⟩
  have hsp : keys.zip values = (keys.zip values).take i ++ (k, values[i]) :: (keys.zip values).drop (i + 1) := by
    have hlt : i < (keys.zip values).length := by simp; omega
    have h1 : (keys.zip values)[i] = (k, values[i]) := by
      rw [List.getElem?_eq_getElem hlt] at hz; simpa using hz
    rw [← h1, ← List.drop_eq_getElem_cons hlt, List.take_append_drop]
  refine ⟨((keys.zip values).drop (i + 1)).reverse, ((keys.zip values).take i).reverse, ?_, ?_⟩
  · conv_lhs => rw [hsp]
    simp
  · intro p hp
    rw [List.mem_reverse, List.mem_iff_getElem?] at hp
    obtain ⟨j, hj⟩ := hp
    rw [List.getElem?_drop, List.getElem?_zip_eq_some] at hj
    have h1 := hj.1
    simp only [bne_iff_ne, ne_eq, beq_eq_false_iff_ne]
    intro he
    rw [← he] at h1
    have := (List.nodup_iff_getElem?_ne_getElem?.1 hn) i (i + 1 + j) (by omega) (List.getElem?_eq_some_iff.1 h1).1
    exact this (hk.trans h1.symm)

/-- With as many observables as shocks the columns of the mask are the shocks. -/
theorem mask_cols {obs shocks : List String} (hn : obs.Nodup) (hl : obs.length = shocks.length) (rows : Nat) :
    (mask obs shocks obs rows : Frame K).cols = shocks := by
  apply List.ext_getElem?
  intro i
  simp only [mask, List.getElem?_map]
  cases h : obs[i]? with
  | none =>
    rw [Option.map_none, eq_comm, List.getElem?_eq_none_iff]
    rw [List.getElem?_eq_none_iff] at h
    omega
  | some o =>
    rw [Option.map_some, zipDict_get hn hl h]
    have hi : i < obs.length := (List.getElem?_eq_some_iff.1 h).1
    rw [List.getElem?_eq_getElem (by omega)]
    rfl

theorem setCols_spec {shocks : List String} (hs : shocks.Nodup) (f : Frame K) (hf : f.cols = shocks)
    (as : List (String × (Nat → Option K))) (ha : ∀ a ∈ as, a.1 ∈ shocks) :
    (as.foldl (fun f a => setCol f a.1 a.2) f).cols = shocks ∧ (as.foldl (fun f a => setCol f a.1 a.2) f).rows = f.rows ∧
    ∀ j name, shocks[j]? = some name → ∀ i, (as.foldl (fun f a => setCol f a.1 a.2) f).val i j =
      (match as.reverse.find? (fun a => a.1 = name) with | some a => a.2 i | none => f.val i j) := by
  induction as using List.reverseRecOn with
  | nil => exact ⟨hf, rfl, fun j name _ i => rfl⟩
  | append_singleton as a ih =>
    obtain ⟨h1, h2, h3⟩ := ih (fun b hb => ha b (by simp [hb]))
    have hm : a.1 ∈ (as.foldl (fun f a => setCol f a.1 a.2) f).cols := by rw [h1]; exact ha a (by simp)
    rw [List.foldl_append]
    simp only [List.foldl_cons, List.foldl_nil]
    have hset : setCol (as.foldl (fun f a => setCol f a.1 a.2) f) a.1 a.2 = ⟨(as.foldl (fun f a => setCol f a.1 a.2) f).cols,
        (as.foldl (fun f a => setCol f a.1 a.2) f).rows, fun i j => if (as.foldl (fun f a => setCol f a.1 a.2) f).cols[j]? = some a.1
          then a.2 i else (as.foldl (fun f a => setCol f a.1 a.2) f).val i j⟩ := by
      exact if_pos hm
    rw [hset]
    refine ⟨h1, h2, fun j name hj i => ?_⟩
    simp only [h1, hj, Option.some.injEq]
    rw [List.reverse_append]
    simp only [List.reverse_cons, List.reverse_nil, List.nil_append, List.singleton_append, List.find?_cons]
    by_cases hc : name = a.1
    · rw [if_pos hc]; simp [hc]
    · rw [if_neg hc, h3 j name hj i]
      have : decide (a.1 = name) = false := by simp; exact fun h => hc h.symm
      rw [this]

/-- **C111** (holds if there are as many observables as shocks): a mask made from `mod.mask` by assigning columns by label acts on
exactly the labelled shocks. -/
theorem C111_mask_by_label_partial {obs shocks : List String} (hn : obs.Nodup) (hs : shocks.Nodup) (hl : obs.length = shocks.length)
    (rows : Nat) (as : List (String × (Nat → Option K))) (ha : ∀ a ∈ as, a.1 ∈ shocks) (op : K → K → K) (eps : Arr K)
    (hr : eps.rows = rows - 1) (hc : eps.cols = shocks.length) :
    ∃ res, applyFrame op (as.foldl (fun f a => setCol f a.1 a.2) (mask obs shocks obs rows)) eps = .ok res ∧
      res.rows = eps.rows ∧ res.cols = eps.cols ∧ ∀ i j name, i < eps.rows → shocks[j]? = some name →
        res.val i j = applyMask op (Spec.assigned as name i) (eps.val i j) := by
  obtain ⟨h1, h2, h3⟩ := setCols_spec hs (mask obs shocks obs rows : Frame K) (mask_cols hn hl rows) as ha
  have h2' : (as.foldl (fun f a => setCol f a.1 a.2) (mask obs shocks obs rows : Frame K)).rows = eps.rows := by rw [h2, hr]; rfl
  unfold applyFrame
  rw [h1, h2', hc]
  simp only [bcast, if_true]
  refine ⟨_, rfl, rfl, rfl, fun i j name hi hj => ?_⟩
  have hj' : j < shocks.length := (List.getElem?_eq_some_iff.1 hj).1
  have b1 : bidx eps.rows i = i := by unfold bidx; split_ifs <;> omega
  have b2 : bidx shocks.length j = j := by unfold bidx; split_ifs <;> omega
  simp only [b1, b2]
  rw [h3 j name hj i]
  rfl

/-- **C111** refuted, for a model with one observable and two shocks: assigning zero to the column of the first shock removes both;
and with three shocks, if `e_c` is assigned before `e_b`, the values of the two are exchanged. -/
theorem C111_mask_by_label_refuted :
    (∃ res : Arr Rat, applyFrame (· * ·) (setCol (mask ["y"] ["e_a", "e_b"] ["y"] 3) "e_a" fun _ => some 0) ⟨2, 2, fun _ _ => 1⟩ = .ok res ∧
      res.val 0 1 = 0 ∧ Spec.assigned [("e_a", fun _ => some (0 : Rat))] "e_b" 0 = none) ∧
    (∃ res : Arr Rat, applyFrame (· * ·) (setCol (setCol (mask ["y"] ["e_a", "e_b", "e_c"] ["y"] 3) "e_c" fun _ => some 0) "e_b" fun _ => some 2)
        ⟨2, 3, fun _ _ => 1⟩ = .ok res ∧ res.val 0 1 = 0 ∧ res.val 0 2 = 2) := by
  refine ⟨⟨_, rfl, ?_, ?_⟩, ⟨_, rfl, ?_, ?_⟩⟩ <;> decide +kernel

/-- C111: the hypotheses are met with two observables and two shocks. -/
example : ∃ res : Arr Rat, applyFrame (· * ·) (setCol (mask ["y", "pi"] ["e_a", "e_b"] ["y", "pi"] 3) "e_b" fun _ => some 0)
    ⟨2, 2, fun _ _ => 1⟩ = .ok res ∧ res.val 0 0 = 1 ∧ res.val 0 1 = 0 := by
  refine ⟨_, rfl, ?_, ?_⟩ <;> decide +kernel

/-- **C112**: `shock2state` returns the vector that `t_func` builds (`s = hstack((state[-dimq + dimeps:], shocks))`) for the zero state
and a single shock of the given size; for names that are no shocks it raises `ValueError`. -/
theorem C112_shock2state (shocks : List String) (dimq : Nat) (hd : shocks.length ≤ dimq) (name : String) (size : K) :
    (∀ (state : List K), (∀ x ∈ state, x = 0) → dimq ≤ state.length + shocks.length → shocks.length < dimq → name ∈ shocks →
      ∃ controls states v, state = controls ++ states ∧ states.length = dimq - shocks.length ∧
      shock2state shocks dimq name size = .ok (states ++ v) ∧ v.length = shocks.length ∧
      ∀ i, i < shocks.length → v[i]? = some (if shocks.idxOf? name = some i then size else 0)) ∧
    (name ∉ shocks → shock2state shocks dimq name size = .error .valueError) := by
  constructor
  · intro state h0 hlen hlt hname
    obtain ⟨i, hi⟩ : ∃ i, shocks.idxOf? name = some i := by
      cases h : shocks.idxOf? name with
      | none => rw [List.idxOf?_eq_none_iff] at h; exact absurd hname h
      | some i => exact ⟨i, rfl⟩
    have hpos : 0 < shocks.length := List.length_pos_of_mem hname
    have hview : sliceFrom (List.replicate dimq (0 : K)) (-(shocks.length : Int)) = List.replicate shocks.length 0 := by
      unfold sliceFrom
      rw [if_neg (by omega)]
      simp only [neg_neg, Int.toNat_natCast, List.length_replicate, List.drop_replicate]
      congr 1; omega
    have hst : sliceFrom state (-(dimq : Int) + (shocks.length : Int)) = List.replicate (dimq - shocks.length) 0 := by
      unfold sliceFrom
      rw [if_neg (by omega)]
      have : (-(-(dimq : Int) + (shocks.length : Int))).toNat = dimq - shocks.length := by omega
      rw [this, List.eq_replicate_iff]
      refine ⟨by simp; omega, fun x hx => h0 x (List.mem_of_mem_drop hx)⟩
    refine ⟨state.take (state.length - (dimq - shocks.length)), List.replicate (dimq - shocks.length) 0,
      (List.replicate shocks.length 0).set i size, ?_, by simp, ?_, by simp, ?_⟩
    · rw [← hst]
      unfold sliceFrom
      rw [if_neg (by omega), show (-(-(dimq : Int) + (shocks.length : Int))).toNat = dimq - shocks.length by omega,
        List.take_append_drop]
    · unfold shock2state
      simp only [hi, hview, List.length_replicate, List.take_replicate]
      rw [Nat.min_eq_left (by omega)]
    · intro j hj
      rw [List.getElem?_set, hi]
      by_cases hij : i = j
      · subst hij
        simp [hj]
      · rw [if_neg hij, if_neg (fun h => hij (Option.some.inj h))]
        simp [hj]
  · intro hname
    unfold shock2state
    rw [List.idxOf?_eq_none_iff.2 hname]

example : shock2state ["e_a", "e_b"] 4 "e_b" (3 : Rat) = .ok [0, 0, 0, 3] := by decide +kernel

end Pydsge
