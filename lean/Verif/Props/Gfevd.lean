import Verif.Model.Gfevd
import Verif.Props.Stats
import Verif.Props.Irfs

/-!
# C141: the sample of `gfevd`
-/

set_option autoImplicit false
set_option linter.unusedSectionVars false
set_option linter.unusedSimpArgs false

namespace Pydsge

open Matrix Pydsge.Engine Pydsge.GenSys Pydsge.Tools Pydsge.Stats

variable {z ε p o K : Type} [Fintype z] [Fintype ε] [Fintype p] [Fintype o] [DecidableEq z] [DecidableEq ε] [DecidableEq p]
  [Field K] [LinearOrder K] [IsStrictOrderedRing K] {M π φ : Type}

/-! ## What `extract` returns -/

/-- **C141** (fails): `gfevd` never works with what `extract` returns, since there is no entry `means`. -/
theorem C141_extract_refuted (sol : M → Model z ε p o K) (setPar : M → π → M × Option PyErr) (shocks : List ε)
    (rng : Nat → Nat → List Nat) (linear : Bool) (horizon : Nat) (nsamples : Option Nat)
    (e : Extracted (p ⊕ z → K) (ε → K) π φ) (m : M) :
    gfevdCall sol setPar shocks rng linear horizon nsamples e.dict m = (m, .error .keyError) := rfl

/-! ## Which shocks, states and parameters belong together -/

theorem takeAt_ok {α : Type} {a : List α} {draw : List Nat} {r : List α} (h : takeAt a draw = .ok r) :
    r.length = draw.length ∧ ∀ (n i : Nat), draw[n]? = some i → r[n]? = a[i]? ∧ i < a.length := by
  induction draw generalizing r with
  | nil =>
    simp only [takeAt, List.mapM_nil] at h
    cases h
    simp
  | cons d ds ih =>
    simp only [takeAt, List.mapM_cons] at h
    cases hd : a[d]? with
    | none => simp [hd, bind, Except.bind] at h
    | some x =>
      simp only [hd, bind, Except.bind] at h
      cases hr : takeAt a ds with
      | error e =>
        unfold takeAt at hr
        rw [hr] at h
        cases h
      | ok r' =>
        obtain ⟨i1, i2⟩ := ih hr
        unfold takeAt at hr
        rw [hr] at h
        cases h
        refine ⟨by simp [i1], ?_⟩
        intro n i hn
        cases n with
        | zero =>
          simp only [List.getElem?_cons_zero, Option.some.injEq] at hn ⊢
          subst hn
          exact ⟨hd.symm, (List.getElem?_eq_some_iff.1 hd).1⟩
        | succ n =>
          simp only [List.getElem?_cons_succ] at hn ⊢
          exact i2 n i hn

/-- Row `i` of the stacked array. -/
theorem flatten_at {ρ : Type} (T : Nat) (hT : 0 < T) : ∀ (L : List (List ρ)), (∀ l ∈ L, l.length = T) → ∀ i,
    L.flatten[i]? = (L[i / T]?).bind (·[i % T]?)
  | [], _, i => by simp
  | l :: L, h, i => by
    have hl : l.length = T := h l (List.mem_cons_self ..)
    rw [List.flatten_cons]
    by_cases hi : i < T
    · rw [List.getElem?_append_left (by omega), Nat.div_eq_of_lt hi, Nat.mod_eq_of_lt hi]
      simp
    · rw [List.getElem?_append_right (by omega), hl, flatten_at T hT L (fun l' h' => h l' (List.mem_cons_of_mem _ h')) (i - T)]
      have h1 : i / T = (i - T) / T + 1 := by
        rw [← Nat.add_div_right _ hT]
        congr 1
        omega
      have h2 : i % T = (i - T) % T := by
        rw [← Nat.add_mod_right (i - T) T]
        congr 1
        omega
      rw [h1, h2, List.getElem?_cons_succ]

theorem repeat_at {ρ : Type} (T : Nat) (hT : 0 < T) (pars : List ρ) (i : Nat) :
    (pars.flatMap (List.replicate T))[i]? = pars[i / T]? := by
  rw [List.flatMap_def, flatten_at T hT]
  · rw [List.getElem?_map]
    cases pars[i / T]? with
    | none => rfl
    | some x => simp [List.getElem?_replicate, Nat.mod_lt i hT]
  · intro l hl
    obtain ⟨x, -, rfl⟩ := List.mem_map.1 hl
    simp

/-- The samples of states have one period more than those of the residuals; one row of parameters per sample. -/
structure Spec.FitsTogether {X R : Type} (T : Nat) (means : List (List X)) (pars : List (Option π)) (resid : List (List R)) : Prop where
  pos : 0 < T
  states : ∀ l ∈ means, l.length = T + 1
  rows : ∀ l ∈ resid, l.length = T
  samples : means.length = resid.length
  vectors : pars.length = resid.length

theorem length_flatten_const {ρ : Type} (T : Nat) : ∀ (L : List (List ρ)), (∀ l ∈ L, l.length = T) → L.flatten.length = L.length * T
  | [], _ => by simp
  | l :: L, h => by
    rw [List.flatten_cons, List.length_append, h l (List.mem_cons_self ..),
      length_flatten_const T L (fun l' h' => h l' (List.mem_cons_of_mem _ h')), List.length_cons, Nat.add_mul, Nat.one_mul, Nat.add_comm]

theorem mapM_takeAt_exists {α : Type} (a : List α) : ∀ draw : List Nat, (∀ i ∈ draw, i < a.length) → ∃ r, takeAt a draw = .ok r
  | [], _ => ⟨[], rfl⟩
  | d :: ds, h => by
    obtain ⟨r, hr⟩ := mapM_takeAt_exists a ds fun i hi => h i (List.mem_cons_of_mem _ hi)
    have hl : d < a.length := h d (List.mem_cons_self ..)
    have hd : a[d]? = some a[d] := List.getElem?_eq_getElem hl
    refine ⟨a[d] :: r, ?_⟩
    unfold takeAt at hr ⊢
    rw [List.mapM_cons, hr, hd]
    rfl

/-- **C141**, what belongs together: the draw with number `i` is period `t` of sample `s`, with `i = s * T + t`: the shocks of that period, the
state in which the period starts, and the parameters of that sample. The sample consists of the drawn numbers, in their order. -/
theorem C141_pairing {X R : Type} {T : Nat} {means : List (List X)} {pars : List (Option π)} {resid : List (List R)}
    (hf : Spec.FitsTogether T means pars resid) (rng : Nat → Nat → List Nat) (nsamples : Option Nat) (n : Nat)
    (hn : nsamples = some n ∧ 0 < n ∨ (nsamples = none ∨ nsamples = some 0) ∧ n = resid.length * T) (hle : n ≤ resid.length * T)
    (hrng : ∀ i ∈ rng (resid.length * T) n, i < resid.length * T) :
    ∃ sample, gfevdSample rng nsamples ⟨some (.three means), some pars, some (.three resid)⟩ = .ok sample ∧
      sample.length = (rng (resid.length * T) n).length ∧
      ∀ (j s t : Nat), t < T → (rng (resid.length * T) n)[j]? = some (s * T + t) →
        ∃ r x q, sample[j]? = some (r, x, q) ∧ (resid[s]?).bind (·[t]?) = some r ∧ (means[s]?).bind (·[t]?) = some x ∧ pars[s]? = some q := by
  have hlen : resid.flatten.length = resid.length * T := length_flatten_const T resid hf.rows
  have hst : ∀ l ∈ means.map List.dropLast, l.length = T := by
    intro l hl
    obtain ⟨x, hx, rfl⟩ := List.mem_map.1 hl
    rw [List.length_dropLast, hf.states x hx]
    omega
  have hlen' : (means.map List.dropLast).flatten.length = resid.length * T := by
    rw [length_flatten_const T _ hst, List.length_map, hf.samples]
  have hpars : ∀ draw : List Nat, (∀ i ∈ draw, i < resid.length * T) →
      takeAt (flatPars pars (.three resid)) draw = takeAt (pars.flatMap (List.replicate T)) draw := by
    intro draw _
    cases hr : resid with
    | nil =>
      have : pars = [] := List.length_eq_zero_iff.1 (by rw [hf.vectors, hr]; rfl)
      subst this
      rfl
    | cons l L =>
      have : l.length = T := hf.rows l (by rw [hr]; exact List.mem_cons_self ..)
      simp [flatPars, this]
  have hlenp : (pars.flatMap (List.replicate T)).length = resid.length * T := by
    rw [List.flatMap_def, length_flatten_const T, List.length_map, hf.vectors]
    intro l hl
    obtain ⟨x, -, rfl⟩ := List.mem_map.1 hl
    simp
  obtain ⟨rs, hrs⟩ := mapM_takeAt_exists resid.flatten _ (fun i hi => by rw [hlen]; exact hrng i hi)
  obtain ⟨xs, hxs⟩ := mapM_takeAt_exists (means.map List.dropLast).flatten _ (fun i hi => by rw [hlen']; exact hrng i hi)
  obtain ⟨ps, hps⟩ := mapM_takeAt_exists (pars.flatMap (List.replicate T)) _ (fun i hi => by rw [hlenp]; exact hrng i hi)
  have hrun : gfevdSample rng nsamples ⟨some (.three means), some pars, some (.three resid)⟩ = .ok (rs.zip (xs.zip ps)) := by
    unfold gfevdSample
    simp only [flatResid, flatStates]
    have fin : ∀ k, k = n → (if resid.flatten.length < k then Except.error PyErr.valueError else
        match takeAt resid.flatten (rng resid.flatten.length k) with
        | .error e => .error e
        | .ok rs => match takeAt (means.map List.dropLast).flatten (rng resid.flatten.length k) with
          | .error e => .error e
          | .ok xs => match takeAt (flatPars pars (.three resid)) (rng resid.flatten.length k) with
            | .error e => .error e
            | .ok ps => Except.ok (rs.zip (xs.zip ps))) = .ok (rs.zip (xs.zip ps)) := by
      rintro _ rfl
      rw [hlen, if_neg (by omega), hrs]
      simp only
      rw [hxs]
      simp only
      rw [hpars _ hrng, hps]
    rcases hn with ⟨rfl, h0⟩ | ⟨rfl | rfl, rfl⟩
    · obtain ⟨k, rfl⟩ : ∃ k, n = k + 1 := ⟨n - 1, by omega⟩
      exact fin _ rfl
    · exact fin _ hlen
    · exact fin _ hlen
  obtain ⟨r1, r2⟩ := takeAt_ok hrs
  obtain ⟨x1, x2⟩ := takeAt_ok hxs
  obtain ⟨p1, p2⟩ := takeAt_ok hps
  refine ⟨_, hrun, by simp [r1, x1, p1], ?_⟩
  intro j s t ht hj
  have hdiv : (s * T + t) / T = s := by
    rw [Nat.add_comm, Nat.add_mul_div_right _ _ hf.pos, Nat.div_eq_of_lt ht, Nat.zero_add]
  have hmod : (s * T + t) % T = t := by
    rw [Nat.add_comm, Nat.add_mul_mod_self_right, Nat.mod_eq_of_lt ht]
  obtain ⟨a1, a2⟩ := r2 j _ hj
  obtain ⟨b1, b2⟩ := x2 j _ hj
  obtain ⟨c1, c2⟩ := p2 j _ hj
  rw [List.getElem?_eq_getElem a2] at a1
  rw [List.getElem?_eq_getElem b2] at b1
  rw [List.getElem?_eq_getElem c2] at c1
  have a3 := flatten_at T hf.pos resid hf.rows (s * T + t)
  have b3 := flatten_at T hf.pos _ hst (s * T + t)
  have c3 := repeat_at T hf.pos pars (s * T + t)
  rw [List.getElem?_eq_getElem a2, hdiv, hmod] at a3
  rw [List.getElem?_eq_getElem b2, hdiv, hmod] at b3
  rw [List.getElem?_eq_getElem c2, hdiv] at c3
  refine ⟨_, (means.map List.dropLast).flatten[s * T + t], _, ?_, a3.symm, ?_, c3.symm⟩
  · rw [List.getElem?_zip_eq_some]
    exact ⟨a1, List.getElem?_zip_eq_some.2 ⟨b1, c1⟩⟩
  · rw [List.getElem?_map] at b3
    cases hm : means[s]? with
    | none => rw [hm] at b3; simp at b3
    | some l =>
      rw [hm] at b3
      simp only [Option.map_some, Option.bind_some] at b3 ⊢
      have hl : l.length = T + 1 := hf.states l (List.mem_of_getElem? hm)
      rw [List.getElem?_dropLast, if_pos (by omega)] at b3
      exact b3.symm

/-- **C141**, what is missing in the result of `extract`: with an entry `means` of the states (one period more than residuals), `gfevd` pairs the residuals
and parameters of `extract` with them as above. -/
theorem C141_extract_repaired {X R : Type} {T : Nat} {means : List (List X)} (e : Extracted X R π φ)
    (hf : Spec.FitsTogether T means e.pars e.resid) (rng : Nat → Nat → List Nat) (hrng : ∀ N, ∀ i ∈ rng N N, i < N) :
    ∃ sample, gfevdSample rng none { e.dict with means := some (.three means) } = .ok sample ∧
      sample.length = (rng (e.resid.length * T) (e.resid.length * T)).length ∧
      ∀ (j s t : Nat), t < T → (rng (e.resid.length * T) (e.resid.length * T))[j]? = some (s * T + t) →
        ∃ r x q, sample[j]? = some (r, x, q) ∧ (e.resid[s]?).bind (·[t]?) = some r ∧ (means[s]?).bind (·[t]?) = some x ∧ e.pars[s]? = some q :=
  C141_pairing hf rng none _ (.inr ⟨.inl rfl, rfl⟩) le_rfl (hrng _)

/-- **C141**, one sample as an array with two axes: the draw with number `t` has the shocks of period `t`, the state in which it starts, and row
`t` of the parameters, which are not repeated here. -/
theorem C141_pairing_one {X R : Type} {means : List X} {pars : List (Option π)} {resid : List R} (hm : means.length = resid.length + 1)
    (hp : pars.length = resid.length) (rng : Nat → Nat → List Nat) (hrng : ∀ i ∈ rng resid.length resid.length, i < resid.length) :
    ∃ sample, gfevdSample rng none ⟨some (.two means), some pars, some (.two resid)⟩ = .ok sample ∧
      sample.length = (rng resid.length resid.length).length ∧
      ∀ (j t : Nat), (rng resid.length resid.length)[j]? = some t →
        ∃ r x q, sample[j]? = some (r, x, q) ∧ resid[t]? = some r ∧ means[t]? = some x ∧ pars[t]? = some q := by
  have hd : means.dropLast.length = resid.length := by rw [List.length_dropLast, hm]; rfl
  obtain ⟨rs, hrs⟩ := mapM_takeAt_exists resid _ hrng
  obtain ⟨xs, hxs⟩ := mapM_takeAt_exists means.dropLast _ (fun i hi => by rw [hd]; exact hrng i hi)
  obtain ⟨ps, hps⟩ := mapM_takeAt_exists pars _ (fun i hi => by rw [hp]; exact hrng i hi)
  obtain ⟨r1, r2⟩ := takeAt_ok hrs
  obtain ⟨x1, x2⟩ := takeAt_ok hxs
  obtain ⟨p1, p2⟩ := takeAt_ok hps
  refine ⟨rs.zip (xs.zip ps), ?_, by simp [r1, x1, p1], ?_⟩
  · simp only [gfevdSample, flatResid, flatStates, flatPars, Nat.lt_irrefl, if_false, hrs, hxs, hps]
  · intro j t hj
    obtain ⟨a1, a2⟩ := r2 j t hj
    obtain ⟨b1, b2⟩ := x2 j t hj
    obtain ⟨c1, c2⟩ := p2 j t hj
    have b3 : means.dropLast[t]? = means[t]? := by rw [List.getElem?_dropLast, if_pos (by omega)]
    rw [List.getElem?_eq_getElem a2] at a1
    rw [b3, List.getElem?_eq_getElem (show t < means.length by omega)] at b1
    rw [List.getElem?_eq_getElem c2] at c1
    refine ⟨_, _, _, ?_, List.getElem?_eq_getElem a2, List.getElem?_eq_getElem (by omega), List.getElem?_eq_getElem c2⟩
    rw [List.getElem?_zip_eq_some]
    refine ⟨a1, ?_⟩
    rw [List.getElem?_zip_eq_some]
    exact ⟨b1, c1⟩

/-- ... so that one row of parameters for one sample of two or more periods is an error, whatever the order of the draws. -/
theorem C141_pairing_one_fails {X R : Type} {means : List X} {q : Option π} {resid : List R} (hm : means.length = resid.length + 1)
    (rng : Nat → Nat → List Nat) (hrng : ∀ i ∈ rng resid.length resid.length, i < resid.length) {i : Nat} (hi : 0 < i)
    (hdraw : i ∈ rng resid.length resid.length) :
    gfevdSample rng none ⟨some (.two means), some [q], some (.two resid)⟩ = .error .indexError := by
  have hd : means.dropLast.length = resid.length := by rw [List.length_dropLast, hm]; rfl
  obtain ⟨rs, hrs⟩ := mapM_takeAt_exists resid _ hrng
  obtain ⟨xs, hxs⟩ := mapM_takeAt_exists means.dropLast _ (fun i hi => by rw [hd]; exact hrng i hi)
  have hps : takeAt [q] (rng resid.length resid.length) = .error .indexError := by
    have : ∀ draw : List Nat, i ∈ draw → takeAt [q] draw = .error .indexError := by
      intro draw
      induction draw with
      | nil => intro h; cases h
      | cons a as ih =>
        intro h
        simp only [takeAt, List.mapM_cons]
        by_cases ha : a = 0
        · subst ha
          have h' : i ∈ as := by
            rcases List.mem_cons.1 h with rfl | h
            · omega
            · exact h
          have := ih h'
          unfold takeAt at this
          rw [this]
          rfl
        · rw [List.getElem?_eq_none (by simp; omega)]
          rfl
    exact this _ hdraw
  simp only [gfevdSample, flatResid, flatStates, flatPars, Nat.lt_irrefl, if_false, hrs, hxs, hps]

/-! ## The seed -/

theorem addShocks_add (d : Draw z ε p o K) (linear : Bool) (horizon : Nat) : ∀ (es : List ε) (g h : ε → p ⊕ z → K),
    addShocks d linear horizon es (g + h) = (addShocks d linear horizon es h).map (g + ·)
  | [], g, h => rfl
  | e :: es, g, h => by
    unfold addShocks
    cases sqDiff d linear horizon e with
    | error err => rfl
    | ok sq =>
      simp only
      rw [← addShocks_add d linear horizon es]
      congr 1
      funext e' v
      by_cases he : e' = e
      · subst he; simp [add_assoc]
      · simp [Function.update_of_ne he]

/-- What a draw adds. -/
def gain (d : Draw z ε p o K) (linear : Bool) (horizon : Nat) (shocks : List ε) : Except PyErr (ε → p ⊕ z → K) :=
  addShocks d linear horizon shocks 0

theorem addShocks_gain (d : Draw z ε p o K) (linear : Bool) (horizon : Nat) (shocks : List ε) (g : ε → p ⊕ z → K) :
    addShocks d linear horizon shocks g = (gain d linear horizon shocks).map (g + ·) := by
  unfold gain
  rw [← addShocks_add, add_zero]

/-- The parameters decide the solution, as long as `Inv` holds, and `set_par` keeps `Inv`. -/
structure Spec.Decides (sol : M → Model z ε p o K) (setPar : M → π → M × Option PyErr) (Inv : M → Prop) : Prop where
  keep : ∀ m q, Inv m → Inv (setPar m q).1
  same : ∀ m m' q, Inv m → Inv m' → (setPar m q).2 = (setPar m' q).2
  sol : ∀ m m' q, Inv m → Inv m' → (setPar m q).2 = none → sol (setPar m q).1 = sol (setPar m' q).1

/-- What the loop adds up if it succeeds: the contributions of the draws, each with the solution for its own parameters. -/
theorem gfevdLoop_sum {sol : M → Model z ε p o K} {setPar : M → π → M × Option PyErr} {Inv : M → Prop}
    (hd : Spec.Decides sol setPar Inv) (shocks : List ε) (linear : Bool) (horizon : Nat) (m0 : M) (h0 : Inv m0) :
    ∀ (sample : List ((ε → K) × (p ⊕ z → K) × Option π)) (m : M) (g : ε → p ⊕ z → K), Inv m → (∀ d ∈ sample, d.2.2.isSome) →
    ((∃ gis, (gfevdLoop sol setPar shocks linear horizon sample m g).2 = .ok gis) ↔
      ∀ d ∈ sample, ∀ q, d.2.2 = some q → (setPar m0 q).2 = none ∧
        ∃ c, gain ⟨sol (setPar m0 q).1, d.2.1, d.1⟩ linear horizon shocks = .ok c) ∧
    ∀ gis, (gfevdLoop sol setPar shocks linear horizon sample m g).2 = .ok gis →
      gis = g + (sample.map fun d => match d.2.2 with
        | none => 0
        | some q => match gain ⟨sol (setPar m0 q).1, d.2.1, d.1⟩ linear horizon shocks with
          | .ok c => c
          | .error _ => 0).sum
  | [], m, g, _, _ => by simp [gfevdLoop]
  | (r, x, none) :: ds, m, g, _, hs => by
    have := hs _ (List.mem_cons_self ..)
    simp at this
  | (r, x, some q) :: ds, m, g, hm, hs => by
    have hm' := hd.keep m q hm
    have hds : ∀ d ∈ ds, d.2.2.isSome := fun d h => hs d (List.mem_cons_of_mem _ h)
    have e1 := hd.same m m0 q hm h0
    unfold gfevdLoop
    simp only
    rcases hq : setPar m q with ⟨m1, _ | e⟩
    · have hn : (setPar m q).2 = none := by rw [hq]
      have hsol := hd.sol m m0 q hm h0 hn
      rw [hq] at hsol hm'
      rw [hn] at e1
      simp only
      rw [addShocks_gain, hsol]
      cases hg : gain ⟨sol (setPar m0 q).1, x, r⟩ linear horizon shocks with
      | error e =>
        simp only [Except.map]
        refine ⟨⟨fun ⟨gis, h⟩ => (by cases h), fun h => ?_⟩, fun gis h => (by cases h)⟩
        obtain ⟨c, hc⟩ := (h _ (List.mem_cons_self ..) q rfl).2
        simp only at hc
        rw [hg] at hc
        cases hc
      | ok c =>
        simp only [Except.map]
        obtain ⟨i1, i2⟩ := gfevdLoop_sum hd shocks linear horizon m0 h0 ds m1 (g + c) hm' hds
        refine ⟨⟨fun h d hd' q' hq' => ?_, fun h => i1.2 fun d hd' => h d (List.mem_cons_of_mem _ hd')⟩, fun gis h => ?_⟩
        · rcases List.mem_cons.1 hd' with rfl | hd'
          · cases hq'
            exact ⟨e1.symm, c, hg⟩
          · exact i1.1 h d hd' q' hq'
        · rw [i2 gis h, List.map_cons, List.sum_cons]
          simp only [hg]
          rw [add_assoc]
    · simp only
      refine ⟨⟨fun ⟨gis, h⟩ => (by cases h), fun h => ?_⟩, fun gis h => (by cases h)⟩
      have := (h _ (List.mem_cons_self ..) q rfl).1
      rw [← e1, hq] at this
      cases this

/-- **C141**: if the whole sample is used, the seed does not matter: two orders of the draws give the same decomposition, or fail both. -/
theorem C141_whole_sample {sol : M → Model z ε p o K} {setPar : M → π → M × Option PyErr} {Inv : M → Prop}
    (hd : Spec.Decides sol setPar Inv) (shocks : List ε) (linear : Bool) (horizon : Nat) {m m' : M} (hm : Inv m) (hm' : Inv m')
    {sample sample' : List ((ε → K) × (p ⊕ z → K) × Option π)} (hp : sample.Perm sample') (hs : ∀ d ∈ sample, d.2.2.isSome)
    (gis : ε → p ⊕ z → K) :
    (gfevdLoop sol setPar shocks linear horizon sample m 0).2 = .ok gis ↔
      (gfevdLoop sol setPar shocks linear horizon sample' m' 0).2 = .ok gis := by
  have hs' : ∀ d ∈ sample', d.2.2.isSome := fun d h => hs d (hp.mem_iff.2 h)
  obtain ⟨a1, a2⟩ := gfevdLoop_sum hd shocks linear horizon m hm sample m 0 hm hs
  obtain ⟨b1, b2⟩ := gfevdLoop_sum hd shocks linear horizon m hm sample' m' 0 hm' hs'
  have hiff : (∃ g, (gfevdLoop sol setPar shocks linear horizon sample m 0).2 = .ok g) ↔
      ∃ g, (gfevdLoop sol setPar shocks linear horizon sample' m' 0).2 = .ok g := by
    rw [a1, b1]
    exact ⟨fun h d hd' => h d (hp.mem_iff.2 hd'), fun h d hd' => h d (hp.mem_iff.1 hd')⟩
  constructor
  · intro h
    obtain ⟨g, hg⟩ := hiff.1 ⟨gis, h⟩
    rw [hg, b2 g hg, a2 gis h, (hp.map _).sum_eq]
  · intro h
    obtain ⟨g, hg⟩ := hiff.2 ⟨gis, h⟩
    rw [hg, a2 g hg, b2 gis h, (hp.map _).sum_eq]

/-- **C141** for the whole call: without `nsamples`, any two seeds give the same decomposition (or both fail). -/
theorem C141_seed {sol : M → Model z ε p o K} {setPar : M → π → M × Option PyErr} {Inv : M → Prop}
    (hd : Spec.Decides sol setPar Inv) (shocks : List ε) (linear : Bool) (horizon : Nat) {m : M} (hm : Inv m) {T : Nat}
    {means : List (List (p ⊕ z → K))} {pars : List (Option π)} {resid : List (List (ε → K))}
    (hf : Spec.FitsTogether T means pars resid) (hpars : ∀ q ∈ pars, q.isSome) (rng rng' : Nat → Nat → List Nat)
    (h1 : ∀ N, (rng N N).Perm (List.range N)) (h2 : ∀ N, (rng' N N).Perm (List.range N)) (vd : ε → p ⊕ z → Option K) :
    (gfevdCall sol setPar shocks rng linear horizon none ⟨some (.three means), some pars, some (.three resid)⟩ m).2 = .ok vd ↔
      (gfevdCall sol setPar shocks rng' linear horizon none ⟨some (.three means), some pars, some (.three resid)⟩ m).2 = .ok vd := by
  have hin : ∀ (rng : Nat → Nat → List Nat), (∀ N, (rng N N).Perm (List.range N)) → ∀ N, ∀ i ∈ rng N N, i < N := fun rng h N i hi =>
    List.mem_range.1 ((h N).mem_iff.1 hi)
  obtain ⟨sa, a1, a2, a3⟩ := C141_pairing hf rng none _ (.inr ⟨.inl rfl, rfl⟩) le_rfl (hin rng h1 _)
  obtain ⟨sb, b1, b2, b3⟩ := C141_pairing hf rng' none _ (.inr ⟨.inl rfl, rfl⟩) le_rfl (hin rng' h2 _)
  let N := resid.length * T
  -- both samples are the drawn rows of one list
  let row : Nat → Option ((ε → K) × (p ⊕ z → K) × Option π) := fun i =>
    ((resid[i / T]?).bind (·[i % T]?)).bind fun r => ((means[i / T]?).bind (·[i % T]?)).bind fun x => (pars[i / T]?).map fun q => (r, x, q)
  have key : ∀ (rng : Nat → Nat → List Nat) (s : List ((ε → K) × (p ⊕ z → K) × Option π)), s.length = (rng N N).length →
      (∀ (j a t : Nat), t < T → (rng N N)[j]? = some (a * T + t) → ∃ r x q, s[j]? = some (r, x, q) ∧
        (resid[a]?).bind (·[t]?) = some r ∧ (means[a]?).bind (·[t]?) = some x ∧ pars[a]? = some q) → s.map some = (rng N N).map row := by
    intro rng s hl h
    refine List.ext_getElem? fun j => ?_
    rw [List.getElem?_map, List.getElem?_map]
    cases hj : (rng N N)[j]? with
    | none =>
      have : s[j]? = none := by
        rw [List.getElem?_eq_none_iff] at hj ⊢
        omega
      rw [this]; rfl
    | some i =>
      have hi : i / T * T + i % T = i := by rw [Nat.mul_comm]; exact Nat.div_add_mod i T
      obtain ⟨r, x, q, e1, e2, e3, e4⟩ := h j (i / T) (i % T) (Nat.mod_lt _ hf.pos) (by rw [hj, hi])
      rw [e1]
      simp only [Option.map_some, Option.some.injEq, row, e2, e3, e4, Option.bind_some]
  have hperm : sa.Perm sb := by
    have e1 := key rng sa a2 a3
    have e2 := key rng' sb b2 b3
    have hp : ((rng N N).map row).Perm ((rng' N N).map row) := ((h1 N).trans (h2 N).symm).map row
    rw [← e1, ← e2] at hp
    have := hp.filterMap id
    simpa [List.filterMap_map] using this
  have hsome : ∀ d ∈ sa, d.2.2.isSome := by
    intro d hdm
    obtain ⟨j, hj⟩ := List.mem_iff_getElem?.1 hdm
    have hjl : j < (rng N N).length := by
      have := (List.getElem?_eq_some_iff.1 hj).1
      rw [a2] at this
      exact this
    have hi : (rng N N)[j] / T * T + (rng N N)[j] % T = (rng N N)[j] := by rw [Nat.mul_comm]; exact Nat.div_add_mod _ T
    obtain ⟨r, x, q, e1, -, -, e4⟩ := a3 j _ _ (Nat.mod_lt _ hf.pos) (by rw [hi]; exact List.getElem?_eq_getElem hjl)
    rw [hj] at e1
    cases e1
    exact hpars q (List.mem_of_getElem? e4)
  have hw := fun g => C141_whole_sample hd shocks linear horizon hm hm hperm hsome g
  unfold gfevdCall
  rw [a1, b1]
  simp only
  rcases ha : gfevdLoop sol setPar shocks linear horizon sa m 0 with ⟨m1, e1 | g1⟩ <;>
    rcases hb : gfevdLoop sol setPar shocks linear horizon sb m 0 with ⟨m2, e2 | g2⟩ <;> simp only
  · simp
  · have := (hw g2).2 (by rw [hb])
    rw [ha] at this
    cases this
  · have := (hw g1).1 (by rw [ha])
    rw [hb] at this
    cases this
  · have := (hw g1).1 (by rw [ha])
    rw [hb] at this
    cases this
    rfl

/-! ## The model afterwards -/

/-- **C141** (what happens instead): after a successful call the model has the solution of the draw that came last. -/
theorem C141_model_afterwards {sol : M → Model z ε p o K} {setPar : M → π → M × Option PyErr} (shocks : List ε) (linear : Bool)
    (horizon : Nat) (r : ε → K) (x : p ⊕ z → K) (q : π) : ∀ (sample : List ((ε → K) × (p ⊕ z → K) × Option π)) (m : M)
    (g gis : ε → p ⊕ z → K), (gfevdLoop sol setPar shocks linear horizon (sample ++ [(r, x, some q)]) m g).2 = .ok gis →
      ∃ m1, (gfevdLoop sol setPar shocks linear horizon (sample ++ [(r, x, some q)]) m g).1 = (setPar m1 q).1
  | [], m, g, gis, h => by
    refine ⟨m, ?_⟩
    simp only [List.nil_append, gfevdLoop] at h ⊢
    rcases hq : setPar m q with ⟨m1, _ | e⟩ <;> simp only [hq] at h ⊢
    cases ha : addShocks ⟨sol m1, x, r⟩ linear horizon shocks g <;> rfl
  | (r', x', par) :: ds, m, g, gis, h => by
    simp only [List.cons_append, gfevdLoop] at h ⊢
    cases par with
    | none =>
      simp only at h ⊢
      cases ha : addShocks ⟨sol m, x', r'⟩ linear horizon shocks g with
      | error e => rw [ha] at h; cases h
      | ok g1 =>
        rw [ha] at h
        exact C141_model_afterwards shocks linear horizon r x q ds m g1 gis h
    | some q' =>
      rcases hq : setPar m q' with ⟨m1, _ | e⟩ <;> simp only [hq] at h ⊢
      · cases ha : addShocks ⟨sol m1, x', r'⟩ linear horizon shocks g with
        | error e => rw [ha] at h; cases h
        | ok g1 =>
          rw [ha] at h
          exact C141_model_afterwards shocks linear horizon r x q ds m1 g1 gis h
      · cases h

/-! ## The linear decomposition -/

section Linear
variable {E ν H : Type} [Fintype E] [Fintype ν] [DecidableEq E] [DecidableEq ν] [DecidableEq H] [Fintype H]
variable {tol : K} {inp : Input E ν ε o K} [DecidablePred (inall tol inp)] {lay : Layout tol inp H z p}
  {orc : Oracle (Rows E H ε) (z ⊕ ε) p K} {lMax kMax : Nat} {sched : Nat → List Nat} {mod : Model z ε p o K}

/-- The response of the linear model at the steady state to a shock of size one, in the last period. -/
def Spec.UnitResponse (mod : Model z ε p o K) (horizon : Nat) (e : ε) (u : p ⊕ z → K) : Prop :=
  ∃ xs st, irfs mod ⟨[(e, 1, 0)], .bool false, true, true⟩ 0 horizon = .ok xs ∧ xs.getLast? = some st ∧ st.state = u

theorem unitResponse_unique {horizon : Nat} {e : ε} {u u' : p ⊕ z → K} (h : Spec.UnitResponse mod horizon e u)
    (h' : Spec.UnitResponse mod horizon e u') : u = u' := by
  obtain ⟨xs, st, a, b, c⟩ := h
  obtain ⟨xs', st', a', b', c'⟩ := h'
  rw [a] at a'
  cases a'
  rw [b] at b'
  cases b'
  rw [← c, ← c']

/-- What a linear draw adds for one shock: the squared shock times the squared unit response, whatever the state is. -/
theorem sqDiff_linear (h : Succeeded lay orc lMax kMax sched mod) (x : p ⊕ z → K) (r : ε → K) {horizon : Nat} (hh : 0 < horizon) (e : ε) :
    ∃ u, Spec.UnitResponse mod horizon e u ∧ sqDiff ⟨mod, x, r⟩ true horizon e = .ok fun v => r e ^ 2 * u v ^ 2 := by
  have hsh : ∀ t < horizon, shkVec [(e, r e, (0 : Int))] t = r e • shkVec [(e, (1 : K), (0 : Int))] t + (1 : K) • shkVec [(e, (0 : K), (0 : Int))] t := by
    intro t _
    funext i
    by_cases ht : (0 : Int) = t <;> by_cases hi : i = e <;> simp [shkVec, ht, hi]
  obtain ⟨A, B, C, a1, b1, c1, la, lb, hC⟩ := C09_superposition h (sk := .bool false) (.inr rfl) true true true (r e) 1 [(e, 1, 0)] [(e, 0, 0)]
    [(e, r e, 0)] horizon hsh 0 x
  have hx : r e • (0 : p ⊕ z → K) + (1 : K) • x = x := by simp
  rw [hx] at c1
  have lC : C.length = horizon := by
    have := congrArg List.length hC
    simpa [la, lb] using this
  obtain ⟨sa, ha⟩ : ∃ s, A.getLast? = some s := by
    cases hA : A.getLast? with
    | none => rw [List.getLast?_eq_none_iff] at hA; subst hA; simp at la; omega
    | some s => exact ⟨s, rfl⟩
  obtain ⟨sb, hb⟩ : ∃ s, B.getLast? = some s := by
    cases hB : B.getLast? with
    | none => rw [List.getLast?_eq_none_iff] at hB; subst hB; simp at lb; omega
    | some s => exact ⟨s, rfl⟩
  obtain ⟨sc, hc⟩ : ∃ s, C.getLast? = some s := by
    cases hC' : C.getLast? with
    | none => rw [List.getLast?_eq_none_iff] at hC'; subst hC'; simp at lC; omega
    | some s => exact ⟨s, rfl⟩
  have hst : sc.state = r e • sa.state + (1 : K) • sb.state := by
    have e1 := congrArg (fun l => l[horizon - 1]?) hC
    rw [List.getLast?_eq_getElem?] at ha hb hc
    rw [la] at ha
    rw [lb] at hb
    rw [lC] at hc
    simp only [List.getElem?_map, List.getElem?_zipWith, ha, hb, hc, Option.map_some, Option.some.injEq] at e1
    exact e1
  refine ⟨sa.state, ⟨A, sa, a1, ha, rfl⟩, ?_⟩
  have f : forceDefault none (.bool false) = true := rfl
  unfold sqDiff lastIrf
  simp only [f, c1, b1, hb, hc]
  congr 1
  funext v
  rw [hst]
  simp only [Pi.add_apply, Pi.smul_apply, smul_eq_mul, one_mul]
  ring

theorem unitResponse_exists (h : Succeeded lay orc lMax kMax sched mod) {horizon : Nat} (hh : 0 < horizon) (e : ε) :
    ∃ u, Spec.UnitResponse mod horizon e u := by
  obtain ⟨u, hu, -⟩ := sqDiff_linear h 0 0 hh e
  exact ⟨u, hu⟩

theorem addShocks_linear (h : Succeeded lay orc lMax kMax sched mod) (x : p ⊕ z → K) (r : ε → K) {horizon : Nat} (hh : 0 < horizon)
    (u : ε → p ⊕ z → K) (hu : ∀ e, Spec.UnitResponse mod horizon e (u e)) : ∀ (es : List ε) (g : ε → p ⊕ z → K), es.Nodup →
    addShocks ⟨mod, x, r⟩ true horizon es g = .ok fun e v => g e v + if e ∈ es then r e ^ 2 * u e v ^ 2 else 0
  | [], g, _ => by simp [addShocks]
  | e :: es, g, hn => by
    rw [List.nodup_cons] at hn
    obtain ⟨u', hu', hs⟩ := sqDiff_linear h x r hh e
    have := unitResponse_unique hu' (hu e)
    subst this
    unfold addShocks
    rw [hs]
    simp only
    rw [addShocks_linear h x r hh u hu es _ hn.2]
    congr 1
    funext e' v
    by_cases he : e' = e
    · subst he
      simp [hn.1]
    · simp [Function.update_of_ne he, he]

theorem gfevdLoop_linear (h : Succeeded lay orc lMax kMax sched mod) {sol : M → Model z ε p o K} {setPar : M → π → M × Option PyErr}
    {m : M} (hm : sol m = mod) {shocks : List ε} (hall : ∀ e, e ∈ shocks) (hn : shocks.Nodup) {horizon : Nat} (hh : 0 < horizon)
    (u : ε → p ⊕ z → K) (hu : ∀ e, Spec.UnitResponse mod horizon e (u e)) : ∀ (sample : List ((ε → K) × (p ⊕ z → K))) (g : ε → p ⊕ z → K),
    gfevdLoop sol setPar shocks true horizon (sample.map fun d => (d.1, d.2, none)) m g =
      (m, .ok fun e v => g e v + (sample.map fun d => d.1 e ^ 2).sum * u e v ^ 2)
  | [], g => by simp [gfevdLoop]
  | (r, x) :: ds, g => by
    simp only [List.map_cons, gfevdLoop, hm]
    rw [addShocks_linear h x r hh u hu shocks g hn]
    simp only
    rw [gfevdLoop_linear h hm hall hn hh u hu ds]
    congr 2
    funext e v
    simp only [hall e, if_true, List.sum_cons]
    ring

/-- **C141**, the linear decomposition with the current parameters: the share of a shock in the variance of a variable is the sum of its squared
residuals times its squared unit response, divided by the sum of these numbers over all shocks. The states of the sample play no role. -/
theorem C141_linear_shares (h : Succeeded lay orc lMax kMax sched mod) {sol : M → Model z ε p o K} {setPar : M → π → M × Option PyErr}
    {m : M} (hm : sol m = mod) {shocks : List ε} (hall : ∀ e, e ∈ shocks) (hn : shocks.Nodup) {horizon : Nat} (hh : 0 < horizon)
    (u : ε → p ⊕ z → K) (hu : ∀ e, Spec.UnitResponse mod horizon e (u e)) (rng : Nat → Nat → List Nat) (nsamples : Option Nat)
    (d : EpsDict (p ⊕ z → K) (ε → K) π) (sample : List ((ε → K) × (p ⊕ z → K)))
    (hs : gfevdSample rng nsamples d = .ok (sample.map fun d => (d.1, d.2, none))) :
    gfevdCall sol setPar shocks rng true horizon nsamples d m = (m, .ok fun e v =>
      if ∑ e', (sample.map fun d => d.1 e' ^ 2).sum * u e' v ^ 2 = 0 then none
      else some ((sample.map fun d => d.1 e ^ 2).sum * u e v ^ 2 / ∑ e', (sample.map fun d => d.1 e' ^ 2).sum * u e' v ^ 2)) := by
  unfold gfevdCall
  rw [hs]
  simp only
  rw [gfevdLoop_linear h hm hall hn hh u hu]
  simp only [Pi.zero_apply, zero_add, fdiv]

end Linear

/-! ## Examples -/

/-- The model of the first example with the bound as its parameter. -/
theorem ex1_bounds : ∃ solB : Rat → Model (Fin 1) (Fin 1) (Fin 1) (Fin 1) Rat,
    ∀ b, Succeeded (Ex1.layB b) Ex1.orc 3 1 (serial 1) (solB b) ∧ (solB b).xbar = b := by
  choose f hf using fun b : Rat => Ex1.succeeds (b := b) 3 1 (Ex1.serial_perm 3 1)
  refine ⟨f, fun b => ⟨hf b, ?_⟩⟩
  obtain ⟨c, hm⟩ := genSys_ok (hf b).perm (hf b).gen
  rw [hm.xbar]
  rfl

/-- **C141** (fails): `gfevd` does not leave the model as it was. Called with one draw with bound `-2` on a model with bound `-1`, it returns shares
and leaves a model with bound `-2`. -/
theorem C141_unchanged_refuted : ∃ (solB : Rat → Model (Fin 1) (Fin 1) (Fin 1) (Fin 1) Rat),
    (∀ b, Succeeded (Ex1.layB b) Ex1.orc 3 1 (serial 1) (solB b)) ∧
    ∃ m vd, gfevdCall id (fun _ b => (solB b, none)) [0] (fun N _ => List.range N) true 1 none
        ⟨some (.three [[0, 0]]), some [some (-2 : Rat)], some (.three [[fun _ => 1]])⟩ (solB (-1)) = (m, .ok vd) ∧
      (solB (-1)).xbar = -1 ∧ m.xbar = -2 := by
  obtain ⟨solB, h⟩ := ex1_bounds
  refine ⟨solB, fun b => (h b).1, ?_⟩
  choose u hu using fun e => unitResponse_exists (h (-2)).1 (horizon := 1) one_pos e
  · unfold gfevdCall
    have hs : gfevdSample (X := Fin 1 ⊕ Fin 1 → Rat) (R := Fin 1 → Rat) (fun N _ => List.range N) none
        ⟨some (.three [[0, 0]]), some [some (-2 : Rat)], some (.three [[fun _ => 1]])⟩ = .ok [(fun _ => 1, 0, some (-2))] := rfl
    rw [hs]
    simp only [gfevdLoop, id]
    rw [addShocks_linear (h (-2)).1 0 (fun _ => 1) one_pos u hu [0] 0 (by simp)]
    exact ⟨_, _, rfl, (h _).2, (h _).2⟩

/-- The hypotheses of C141_pairing, C141_seed and C141_linear_shares are met by the first example: two samples of two periods with their own bounds; the draws
in their order or backwards. -/
theorem C141_hypotheses_met : ∃ (solB : Rat → Model (Fin 1) (Fin 1) (Fin 1) (Fin 1) Rat) (sol : Rat → Model (Fin 1) (Fin 1) (Fin 1) (Fin 1) Rat),
    (∀ b, Succeeded (Ex1.layB b) Ex1.orc 3 1 (serial 1) (solB b)) ∧
    Spec.Decides sol (fun _ b => (b, none)) (fun _ => True) ∧
    Spec.FitsTogether 2 [[(fun _ => 0 : Fin 1 ⊕ Fin 1 → Rat), fun _ => 1, fun _ => 2], [fun _ => 3, fun _ => 4, fun _ => 5]]
      [some (-1 : Rat), some (-2)] [[(fun _ => 1 : Fin 1 → Rat), fun _ => 2], [fun _ => 3, fun _ => 4]] ∧
    (∀ N, ((fun N _ => (List.range N).reverse : Nat → Nat → List Nat) N N).Perm (List.range N)) ∧
    ∃ vd, (gfevdCall sol (fun _ b => (b, none)) [0] (fun N _ => (List.range N).reverse) true 1 none
      ⟨some (.three [[(fun _ => 0), fun _ => 1, fun _ => 2], [fun _ => 3, fun _ => 4, fun _ => 5]]),
        some [some (-1 : Rat), some (-2)], some (.three [[(fun _ => 1), fun _ => 2], [fun _ => 3, fun _ => 4]])⟩ (-1)).2 = .ok vd := by
  obtain ⟨solB, h⟩ := ex1_bounds
  refine ⟨solB, solB, fun b => (h b).1, ⟨fun _ _ _ => trivial, fun _ _ _ _ _ => rfl, fun _ _ _ _ _ _ => rfl⟩,
    ⟨by omega, by simp, by simp, rfl, rfl⟩, fun N => List.reverse_perm _, ?_⟩
  have hu : ∀ b, ∃ u : Fin 1 → Fin 1 ⊕ Fin 1 → Rat, ∀ e, Spec.UnitResponse (solB b) 1 e (u e) := fun b => by
    choose u hu using fun e => unitResponse_exists (h b).1 (horizon := 1) one_pos e
    exact ⟨u, hu⟩
  obtain ⟨u1, hu1⟩ := hu (-1)
  obtain ⟨u2, hu2⟩ := hu (-2)
  · unfold gfevdCall
    have hs : gfevdSample (X := Fin 1 ⊕ Fin 1 → Rat) (R := Fin 1 → Rat) (fun N _ => (List.range N).reverse) none
        ⟨some (.three [[(fun _ => 0), fun _ => 1, fun _ => 2], [fun _ => 3, fun _ => 4, fun _ => 5]]),
          some [some (-1 : Rat), some (-2)], some (.three [[(fun _ => 1), fun _ => 2], [fun _ => 3, fun _ => 4]])⟩ =
        .ok [(fun _ => 4, fun _ => 4, some (-2)), (fun _ => 3, fun _ => 3, some (-2)), (fun _ => 2, fun _ => 1, some (-1)),
          (fun _ => 1, fun _ => 0, some (-1))] := rfl
    rw [hs]
    simp only [gfevdLoop]
    rw [addShocks_linear (h (-2)).1 _ _ one_pos u2 hu2 [0] _ (by simp)]
    simp only
    rw [addShocks_linear (h (-2)).1 _ _ one_pos u2 hu2 [0] _ (by simp)]
    simp only
    rw [addShocks_linear (h (-1)).1 _ _ one_pos u1 hu1 [0] _ (by simp)]
    simp only
    rw [addShocks_linear (h (-1)).1 _ _ one_pos u1 hu1 [0] _ (by simp)]
    exact ⟨_, rfl⟩

end Pydsge
