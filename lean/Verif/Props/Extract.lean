import Verif.Model.Extract
import Verif.Props.LastWins

/-!
# C119, C120: `extract` for several parameter vectors and seeds
-/

set_option autoImplicit false
set_option linter.unusedSectionVars false
set_option linter.unusedSimpArgs false

namespace Pydsge

open Pydsge.Params Pydsge.Extract

variable {K PP VV HX LS TT QQ Seed R : Type} [Field K] [LinearOrder K] {S : Solver K PP VV HX LS TT QQ} {D : Decl K} {dr : Draws K}
  {g : GenArgs} {sq : QQ → QQ} {run : Attrs K PP VV HX LS TT QQ → Seed → Except PyErr (Option R)}

/-- All vectors are complete, or all consist of the estimated parameters. -/
def Spec.Uniform (D : Decl K) (vs : List (List K)) : Prop :=
  (∀ v ∈ vs, v.length = D.names.length) ∨
  ∃ p, D.prior = some p ∧ p.names.length ≠ D.names.length ∧ ∀ v ∈ vs, v.length = p.names.length

/-- The result for one vector and one seed: that of the model `self` if it is given this vector, and nothing else happens. -/
def Spec.single (S : Solver K PP VV HX LS TT QQ) (D : Decl K) (dr : Draws K) (g : GenArgs) (sq : QQ → QQ)
    (run : Attrs K PP VV HX LS TT QQ → Seed → Except PyErr (Option R)) (self : Obj K PP VV HX LS TT QQ) (v : List K) (seed : Seed) :
    Except PyErr (Option (List K × R)) :=
  match (setPar S D dr g sq self (.vec v) none).2 with
  | .error e => .error e
  | .ok _ =>
    match run (setPar S D dr g sq self (.vec v) none).1.a seed with
    | .error e => .error e
    | .ok none => .ok none
    | .ok (some r) => .ok (some (v, r))

/-- What all workers keep in common with `self`. -/
structure Like (D : Decl K) (g : GenArgs) (vs : List (List K)) (base o : Obj K PP VV HX LS TT QQ) : Prop where
  lks : GenSys.newLks g.lMax g.kMax o.a.lks = GenSys.newLks g.lMax g.kMax base.a.lks
  filter : o.a.filterQ.isSome = base.a.filterQ.isSome
  par : ParOK D o
  rest : (∀ v ∈ vs, v.length = D.names.length) ∨ ∃ p, D.prior = some p ∧ p.names.length ≠ D.names.length ∧ (∀ v ∈ vs, v.length = p.names.length) ∧
    ∀ v ∈ vs, setMany (curPar D o.a) p.arg v = setMany (curPar D base.a) p.arg v

theorem newLks_idem {l k : Option Int} {prev : Option (Int × Int)} {L : Int × Int} (h : GenSys.newLks l k prev = .ok L) :
    GenSys.newLks l k (some L) = .ok L := by
  unfold GenSys.newLks at h ⊢
  cases l with
  | none =>
    simp only at h ⊢
    cases k <;> cases prev <;> (cases h; rfl)
  | some l =>
    simp only at h ⊢
    by_cases hl : l < 2
    · simp only [hl, if_true] at h ⊢
      cases k with
      | none => simp at h
      | some k => cases prev <;> (cases h; rfl)
    · simp only [hl, if_false] at h ⊢
      cases k <;> cases prev <;> (cases h; rfl)

/-- After `gen_sys` the size of the tables is as before or as asked for. -/
theorem genSysYaml_lks (a : Attrs K PP VV HX LS TT QQ) (v : List K) :
    GenSys.newLks g.lMax g.kMax (genSysYaml S D g a (some v)).1.lks = GenSys.newLks g.lMax g.kMax a.lks ∧
      (genSysYaml S D g a (some v)).1.filterQ = a.filterQ := by
  unfold genSysYaml
  simp only
  cases hn : GenSys.newLks g.lMax g.kMax a.lks with
  | error e =>
    simp only
    repeat' split
    all_goals exact ⟨hn, rfl⟩
  | ok L =>
    have := newLks_idem hn
    simp only
    repeat' split
    all_goals first | exact ⟨hn, rfl⟩ | exact ⟨this, rfl⟩

theorem finishSet_like (h : WF D) {v : List K} (hv : v.length = D.names.length) (o : Obj K PP VV HX LS TT QQ) :
    GenSys.newLks g.lMax g.kMax (finishSet S D dr g sq o v).1.a.lks = GenSys.newLks g.lMax g.kMax o.a.lks ∧
      (finishSet S D dr g sq o v).1.a.filterQ.isSome = o.a.filterQ.isSome := by
  rw [finishSet_eq h hv o]
  obtain ⟨h1, h2⟩ := genSysYaml_lks (S := S) (D := D) (g := g) o.a v
  rcases hg : genSysYaml S D g o.a (some v) with ⟨a, e⟩
  rw [hg] at h1 h2
  simp only at h1 h2
  cases e with
  | some e => exact ⟨h1, by rw [h2]⟩
  | none =>
    simp only
    split
    · rename_i q pp hq _
      refine ⟨h1, ?_⟩
      rw [← h2, hq]
      rfl
    · exact ⟨h1, by rw [h2]⟩

/-- One call of `set_par` on a worker. -/
theorem like_step (h : WF D) (hx0 : g.hxOnly = false) {vs : List (List K)} {self o : Obj K PP VV HX LS TT QQ} (hself : ParOK D self)
    (hl : Like D g vs self o) {v : List K} (hv : v ∈ vs) :
    (setPar S D dr g sq o (.vec v) none).2 = (setPar S D dr g sq self (.vec v) none).2 ∧
    (∀ r, (setPar S D dr g sq self (.vec v) none).2 = .ok r →
      (setPar S D dr g sq o (.vec v) none).1.a = (setPar S D dr g sq self (.vec v) none).1.a) ∧
    Like D g vs self (setPar S D dr g sq o (.vec v) none).1 := by
  rcases hl.rest with hf | ⟨p, hp, hne, hlen, hov⟩
  · have hvl := hf v hv
    rw [setPar_full h hvl, setPar_full h hvl]
    have h1 := finishSet_congr (S := S) (dr := dr) (g := g) (sq := sq) h hvl hx0 self o hl.lks.symm hl.filter.symm
    obtain ⟨h2, h3⟩ := finishSet_like (S := S) (dr := dr) (g := g) (sq := sq) h hvl o
    refine ⟨h1.1.symm, fun r hr => (h1.2 r hr).symm, h2.trans hl.lks, h3.trans hl.filter, ?_, .inl hf⟩
    intro w hw
    rw [finishSet_par h hvl, Option.some.injEq] at hw
    rw [← hw]; exact hvl
  · have hvl := hlen v hv
    rw [setPar_est h hp hvl hne o hl.par, setPar_est h hp hvl hne self hself, hov v hv]
    have hfl : (setMany (curPar D self.a) p.arg v).length = D.names.length := by rw [setMany_length, curPar_length h hself]
    have h1 := finishSet_congr (S := S) (dr := dr) (g := g) (sq := sq) h hfl hx0 self o hl.lks.symm hl.filter.symm
    obtain ⟨h2, h3⟩ := finishSet_like (S := S) (dr := dr) (g := g) (sq := sq) h hfl o
    have hpar := finishSet_par (S := S) (dr := dr) (g := g) (sq := sq) h hfl o
    refine ⟨h1.1.symm, fun r hr => (h1.2 r hr).symm, h2.trans hl.lks, h3.trans hl.filter, ?_, .inr ⟨p, hp, hne, hlen, ?_⟩⟩
    · intro w hw
      rw [hpar, Option.some.injEq] at hw
      rw [← hw]; exact hfl
    · intro w hw
      rw [curPar_of hpar]
      exact setMany_twice _ _ _ _ (h.argNodup hp) (by rw [hvl, h.argLen hp]) (by rw [hlen w hw, h.argLen hp])
        (by rw [curPar_length h hself]; exact h.bound hp)

theorem runner_like (h : WF D) (hx0 : g.hxOnly = false) {vs : List (List K)} {self o : Obj K PP VV HX LS TT QQ} (hself : ParOK D self)
    (hl : Like D g vs self o) {t : List K × Seed} (ht : t.1 ∈ vs) :
    (runner S D dr g sq run o t).2 = Spec.single S D dr g sq run self t.1 t.2 ∧ Like D g vs self (runner S D dr g sq run o t).1 := by
  obtain ⟨h1, h2, h3⟩ := like_step (S := S) (dr := dr) (sq := sq) h hx0 hself hl ht
  unfold runner Spec.single
  rcases hs : setPar S D dr g sq o (.vec t.1) none with ⟨o', e | r⟩
  · rw [hs] at h1 h3
    rw [← h1]
    exact ⟨rfl, h3⟩
  · rw [hs] at h1 h2 h3
    simp only at h1 h2 h3
    rw [← h1, ← h2 r h1.symm]
    exact ⟨rfl, h3⟩

theorem like_self {vs : List (List K)} (hu : Spec.Uniform D vs) {self : Obj K PP VV HX LS TT QQ} (hself : ParOK D self) :
    Like D g vs self self := by
  refine ⟨rfl, rfl, hself, ?_⟩
  rcases hu with hu | ⟨p, h1, h2, h3⟩
  · exact .inl hu
  · exact .inr ⟨p, h1, h2, h3, fun _ _ => rfl⟩

theorem tasks_mem {vs : List (List K)} {seeds : List Seed} {t : List K × Seed} (ht : t ∈ tasks vs seeds) : t.1 ∈ vs := by
  unfold tasks at ht
  rw [List.mem_flatMap] at ht
  obtain ⟨x, hx, h⟩ := ht
  rw [List.mem_map] at h
  obtain ⟨y, _, rfl⟩ := h
  exact hx

theorem runMap_spec (h : WF D) (hx0 : g.hxOnly = false) {vs : List (List K)} {self : Obj K PP VV HX LS TT QQ} (hself : ParOK D self) :
    ∀ (ts : List (List K × Seed)) (o : Obj K PP VV HX LS TT QQ), (∀ t ∈ ts, t.1 ∈ vs) → Like D g vs self o →
      (runMap S D dr g sq run o ts).2 = gather (ts.map fun t => Spec.single S D dr g sq run self t.1 t.2)
  | [], o, _, _ => rfl
  | t :: ts, o, hts, hl => by
    obtain ⟨h1, h2⟩ := runner_like (S := S) (dr := dr) (sq := sq) (run := run) h hx0 hself hl (hts t (by simp))
    rw [List.map_cons, ← h1]
    unfold runMap
    rcases hr : runner S D dr g sq run o t with ⟨o', e | r⟩
    · rfl
    · rw [hr] at h2
      have ih := runMap_spec h hx0 hself ts o' (fun t ht => hts t (by simp [ht])) h2
      simp only [gather]
      rw [← ih]
      rcases runMap S D dr g sq run o' ts with ⟨o'', e | rs⟩ <;> rfl

theorem runPool_spec (h : WF D) (hx0 : g.hxOnly = false) {vs : List (List K)} {self : Obj K PP VV HX LS TT QQ} (hself : ParOK D self)
    (ts : List (List K × Seed)) (hts : ∀ t ∈ ts, t.1 ∈ vs) (assign : Nat → Nat) :
    ∀ (order : List Nat) (ws : Nat → Obj K PP VV HX LS TT QQ) (res : Nat → Option (Except PyErr (Option (List K × R)))),
      (∀ w, Like D g vs self (ws w)) → (∀ i r, res i = some r → ∃ t, ts[i]? = some t ∧ r = Spec.single S D dr g sq run self t.1 t.2) →
      ∀ i t, ts[i]? = some t → (i ∈ order ∨ (res i).isSome) →
        runPool S D dr g sq run ts assign order ws res i = some (Spec.single S D dr g sq run self t.1 t.2)
  | [], ws, res, hws, hres, i, t, hi, hio => by
    rcases hio with hio | hio
    · simp at hio
    · obtain ⟨r, hr⟩ := Option.isSome_iff_exists.1 hio
      obtain ⟨t', ht', rfl⟩ := hres i r hr
      rw [hi, Option.some.injEq] at ht'
      subst ht'
      exact hr
  | j :: js, ws, res, hws, hres, i, t, hi, hio => by
    unfold runPool
    cases hj : ts[j]? with
    | none =>
      simp only
      refine runPool_spec h hx0 hself ts hts assign js ws res hws hres i t hi ?_
      rcases hio with hio | hio
      · rcases List.mem_cons.1 hio with rfl | hio
        · rw [hi] at hj; cases hj
        · exact .inl hio
      · exact .inr hio
    | some u =>
      simp only
      obtain ⟨h1, h2⟩ := runner_like (S := S) (dr := dr) (sq := sq) (run := run) h hx0 hself (hws (assign j))
        (hts u (List.mem_of_getElem? hj))
      refine runPool_spec h hx0 hself ts hts assign js _ _ ?_ ?_ i t hi ?_
      · intro w
        by_cases hw : w = assign j
        · subst hw
          rw [Function.update_self]
          exact h2
        · rw [Function.update_of_ne hw]
          exact hws w
      · intro k r hk
        by_cases hkj : k = j
        · subst hkj
          rw [Function.update_self, Option.some.injEq] at hk
          exact ⟨u, hj, by rw [← hk, h1]⟩
        · rw [Function.update_of_ne hkj] at hk
          exact hres k r hk
      · by_cases hij : i = j
        · right
          rw [hij, Function.update_self]
          rfl
        · rw [Function.update_of_ne hij]
          rcases hio with hio | hio
          · rcases List.mem_cons.1 hio with rfl | hio
            · exact absurd rfl hij
            · exact .inl hio
          · exact .inr hio

theorem samples_many {cur : Option (List K)} {vs : List (List K)} (h : vs ≠ []) : samples cur (.many vs) = .ok vs := by
  cases vs with
  | nil => exact absurd rfl h
  | cons v vs => rfl

/-- **C119**: for several parameter vectors and seeds, `extract` returns the results in the order vector by vector, seed by seed, each together
with its vector, and each is the result of the model with exactly this vector and this seed, however the tasks are distributed over workers and
in whatever order they are done; it raises the first exception in this order, if any, and raises if there is no result at all. -/
theorem C119_each_sample_its_own (h : WF D) (hx0 : g.hxOnly = false) (rng : Nat → List Seed) (kalman : Bool)
    (pool : Option ((Nat → Nat) × List Nat)) (self : Obj K PP VV HX LS TT QQ) (hself : ParOK D self) (vs : List (List K))
    (hvs : vs ≠ []) (hu : Spec.Uniform D vs) (n : Nat) (hpool : ∀ assign order, pool = some (assign, order) → ∀ i < vs.length * (rng n).length, i ∈ order) :
    (extract S D dr g sq run rng kalman pool self (.many vs) n).2 =
      match gather (vs.flatMap fun v => (rng (if kalman then 1 else n)).map fun s => Spec.single S D dr g sq run self v s) with
      | .error e => .error e
      | .ok rs => stack rs := by
  have hts : (vs.flatMap fun v => (rng (if kalman then 1 else n)).map fun s => Spec.single S D dr g sq run self v s) =
      (tasks vs (rng (if kalman then 1 else n))).map fun t => Spec.single S D dr g sq run self t.1 t.2 := by
    unfold tasks
    rw [List.map_flatMap]
    simp only [List.map_map]
    rfl
  rw [hts]
  unfold extract
  rw [samples_many hvs]
  simp only
  have hmap : (match runMap S D dr g sq run self (tasks vs (rng (if kalman then 1 else n))) with
      | (o, .error e) => ((o, .error e) : Obj K PP VV HX LS TT QQ × Except PyErr (List (List K × R)))
      | (o, .ok rs) => (o, stack rs)).2 =
      match gather ((tasks vs (rng (if kalman then 1 else n))).map fun t => Spec.single S D dr g sq run self t.1 t.2) with
      | .error e => .error e
      | .ok rs => stack rs := by
    rw [← runMap_spec h hx0 hself _ self (fun t ht => tasks_mem ht) (like_self hu hself)]
    rcases runMap S D dr g sq run self (tasks vs (rng (if kalman then 1 else n))) with ⟨o, e | rs⟩ <;> rfl
  cases kalman with
  | true => exact hmap
  | false =>
    simp only [Bool.false_eq_true, if_false] at hmap ⊢
    cases pool with
    | none => exact hmap
    | some po =>
      obtain ⟨assign, order⟩ := po
      simp only
      have hlen : (tasks vs (rng n)).length = vs.length * (rng n).length := by
        unfold tasks
        simp [List.length_flatMap]
      have hl : ((List.range (tasks vs (rng n)).length).map fun i =>
          match runPool S D dr g sq run (tasks vs (rng n)) assign order (fun _ => self) (fun _ => none) i with
          | some r => r
          | none => .error .uninit) = (tasks vs (rng n)).map fun t => Spec.single S D dr g sq run self t.1 t.2 := by
        apply List.ext_getElem
        · simp
        · intro i h1 h2
          simp only [List.length_map, List.length_range] at h1
          rw [List.getElem_map, List.getElem_map, List.getElem_range]
          rw [runPool_spec h hx0 hself (tasks vs (rng n)) (fun t ht => tasks_mem ht) assign order _ _ (fun _ => like_self hu hself)
            (by intro i r hr; cases hr) i (tasks vs (rng n))[i] (List.getElem?_eq_getElem h1)
            (.inl (hpool assign order rfl i (by rw [← hlen]; exact h1)))]
      have hl' := congrArg gather hl
      cases hg : gather ((tasks vs (rng n)).map fun t => Spec.single S D dr g sq run self t.1 t.2) with
      | error e =>
        rw [hg] at hl'
        split
        · rename_i e' he'
          have := he'.symm.trans hl'
          cases this
          rfl
        · rename_i rs hrs
          exact absurd (hrs.symm.trans hl') (by simp)
      | ok rs =>
        rw [hg] at hl'
        split
        · rename_i e' he'
          exact absurd (he'.symm.trans hl') (by simp)
        · rename_i rs' hrs
          have := hrs.symm.trans hl'
          cases this
          rfl

theorem gather_ok {α : Type} : ∀ {rs : List (Except PyErr α)} {as : List α}, gather rs = .ok as ↔ rs = as.map .ok
  | [], as => by cases as <;> simp [gather]
  | .error e :: rs, as => by cases as <;> simp [gather]
  | .ok a :: rs, as => by
    unfold gather
    cases hg : gather rs with
    | error e =>
      have := fun as' => (gather_ok (rs := rs) (as := as')).2
      cases as with
      | nil => simp
      | cons b bs =>
        simp only [reduceCtorEq, List.map_cons, List.cons.injEq, Except.ok.injEq, false_iff, not_and]
        intro _ h
        rw [this bs h] at hg
        cases hg
    | ok as' =>
      have := (gather_ok (rs := rs) (as := as')).1 hg
      cases as with
      | nil => simp
      | cons b bs =>
        simp only [List.map_cons, List.cons.injEq, Except.ok.injEq]
        constructor
        · rintro ⟨rfl, rfl⟩; exact ⟨rfl, this⟩
        · rintro ⟨rfl, h⟩
          refine ⟨rfl, ?_⟩
          rw [this] at h
          exact List.map_injective_iff.2 (fun _ _ h => Except.ok.inj h) h

theorem gather_error {α : Type} : ∀ {rs : List (Except PyErr α)} {e : PyErr},
    gather rs = .error e ↔ ∃ (pre : List α) (post : List (Except PyErr α)), rs = pre.map .ok ++ .error e :: post
  | [], e => by simp [gather]
  | .error e' :: rs, e => by
    simp only [gather, Except.error.injEq]
    constructor
    · rintro rfl; exact ⟨[], rs, rfl⟩
    · rintro ⟨pre, post, h⟩
      cases pre with
      | nil => simp at h; exact h.1
      | cons a pre => simp at h
  | .ok a :: rs, e => by
    have ih := gather_error (rs := rs) (e := e)
    unfold gather
    constructor
    · intro h
      cases hg : gather rs with
      | ok as => rw [hg] at h; cases h
      | error e' =>
        rw [hg] at h
        cases h
        obtain ⟨pre, post, h⟩ := ih.1 hg
        exact ⟨a :: pre, post, by rw [h]; rfl⟩
    · rintro ⟨pre, post, h⟩
      cases pre with
      | nil => simp at h
      | cons b pre =>
        simp only [List.map_cons, List.cons_append, List.cons.injEq, Except.ok.injEq] at h
        rw [ih.2 ⟨pre, post, h.2⟩]

/-- **C119**, spelled out: `out` is returned exactly if no single result is an exception and `out` is the non-empty list of those that are
not `None`; the exception is the first one in this order, or a `ValueError` if nothing is left. -/
theorem C119_outcome (h : WF D) (hx0 : g.hxOnly = false) (rng : Nat → List Seed) (kalman : Bool)
    (pool : Option ((Nat → Nat) × List Nat)) (self : Obj K PP VV HX LS TT QQ) (hself : ParOK D self) (vs : List (List K))
    (hvs : vs ≠ []) (hu : Spec.Uniform D vs) (n : Nat) (hpool : ∀ assign order, pool = some (assign, order) → ∀ i < vs.length * (rng n).length, i ∈ order)
    (rs : List (Except PyErr (Option (List K × R))))
    (hrs : rs = vs.flatMap fun v => (rng (if kalman then 1 else n)).map fun s => Spec.single S D dr g sq run self v s) :
    (∀ out, (extract S D dr g sq run rng kalman pool self (.many vs) n).2 = .ok out ↔
      out ≠ [] ∧ ∃ os : List (Option (List K × R)), rs = os.map .ok ∧ out = os.filterMap id) ∧
    (∀ e, (extract S D dr g sq run rng kalman pool self (.many vs) n).2 = .error e ↔
      (∃ (pre : List (Option (List K × R))) (post : List (Except PyErr (Option (List K × R)))), rs = pre.map .ok ++ .error e :: post) ∨
      (e = .valueError ∧ ∃ m, rs = List.replicate m (.ok none))) := by
  rw [C119_each_sample_its_own h hx0 rng kalman pool self hself vs hvs hu n hpool, ← hrs]
  have hst : ∀ os : List (Option (List K × R)), (os.filterMap id = [] ↔ os = List.replicate os.length none) := by
    intro os
    rw [List.filterMap_eq_nil_iff, List.eq_replicate_iff]
    simp
  rcases hg : gather rs with e' | os
  · have hno : ∀ os : List (Option (List K × R)), rs ≠ os.map .ok := by
      intro os hos
      rw [gather_ok.2 hos] at hg
      cases hg
    simp only
    constructor
    · intro out
      constructor
      · intro h; cases h
      · rintro ⟨_, os, hos, _⟩; exact absurd hos (hno os)
    · intro e
      rw [Except.error.injEq]
      constructor
      · rintro rfl; exact .inl (gather_error.1 hg)
      · rintro (h | ⟨_, m, hm⟩)
        · rw [gather_error.2 h] at hg
          cases hg
          rfl
        · exact absurd (by rw [hm, List.map_replicate]) (hno (List.replicate m none))
  · have hos := gather_ok.1 hg
    have hinj : ∀ os' : List (Option (List K × R)), rs = os'.map .ok → os' = os := fun os' h =>
      List.map_injective_iff.2 (fun _ _ h => Except.ok.inj h) (h.symm.trans hos)
    have hne : ∀ e, ¬ ∃ (pre : List (Option (List K × R))) (post : List (Except PyErr (Option (List K × R)))),
        rs = pre.map .ok ++ .error e :: post := by
      intro e h
      rw [gather_error.2 h] at hg
      cases hg
    simp only
    unfold stack
    cases hf : os.filterMap id with
    | nil =>
      simp only
      constructor
      · intro out
        constructor
        · intro h; cases h
        · rintro ⟨h1, os', h2, h3⟩
          rw [hinj os' h2, hf] at h3
          exact absurd h3 h1
      · intro e
        rw [Except.error.injEq]
        constructor
        · rintro rfl
          refine .inr ⟨rfl, os.length, ?_⟩
          rw [hos]
          conv_lhs => rw [(hst os).1 hf]
          rw [List.map_replicate]
        · rintro (h | ⟨rfl, _⟩)
          · exact absurd h (hne e)
          · rfl
    | cons a as =>
      simp only
      constructor
      · intro out
        rw [Except.ok.injEq]
        constructor
        · rintro rfl; exact ⟨by simp, os, hos, hf.symm⟩
        · rintro ⟨_, os', h2, h3⟩
          rw [h3, hinj os' h2, hf]
      · intro e
        constructor
        · intro h; cases h
        · rintro (h | ⟨_, m, hm⟩)
          · exact absurd h (hne e)
          · have := hinj (List.replicate m none) (by rw [hm, List.map_replicate])
            rw [← this, List.filterMap_replicate_of_none rfl] at hf
            cases hf

/-- **C119**, the argument `sample`: a single vector is a list of one vector; without `sample` the current parameters are used, and a model
without parameters raises and is left as it was. -/
theorem C119_sample_forms (rng : Nat → List Seed) (kalman : Bool) (pool : Option ((Nat → Nat) × List Nat)) (self : Obj K PP VV HX LS TT QQ)
    (n : Nat) :
    (∀ v, extract S D dr g sq run rng kalman pool self (.one v) n = extract S D dr g sq run rng kalman pool self (.many [v]) n) ∧
    (∀ v, self.a.par = some v →
      extract S D dr g sq run rng kalman pool self .none n = extract S D dr g sq run rng kalman pool self (.many [v]) n) ∧
    (self.a.par = none → extract S D dr g sq run rng kalman pool self .none n = (self, .error .attributeError)) ∧
    extract S D dr g sq run rng kalman pool self (.many []) n = (self, .error .indexError) := by
  refine ⟨fun v => rfl, fun v hv => ?_, fun hv => ?_, rfl⟩ <;> unfold extract <;> simp only [samples, hv]

/-- **C120** (the full statement "`extract` leaves the parameters of the model as they were" fails, see `C120_parameters_kept_refuted`):
it holds if a pool of processes does the work, and if no other parameters than the current ones are asked for. -/
theorem C120_parameters_kept_partial (h : WF D) (rng : Nat → List Seed) (kalman : Bool)
    (pool : Option ((Nat → Nat) × List Nat)) (self : Obj K PP VV HX LS TT QQ) (hself : ParOK D self) (sample : Sample K) (n : Nat) :
    (kalman = false → pool ≠ none → (extract S D dr g sq run rng kalman pool self sample n).1 = self) ∧
    (sample = .none → (extract S D dr g sq run rng kalman pool self sample n).1.a.par = self.a.par) := by
  have key : ∀ (v : List K), v.length = D.names.length → ∀ (ts : List (List K × Seed)) (o : Obj K PP VV HX LS TT QQ), (∀ t ∈ ts, t.1 = v) →
      o.a.par = some v → (runMap S D dr g sq run o ts).1.a.par = some v := by
    intro v hv ts
    induction ts with
    | nil => intro o _ ho; exact ho
    | cons t ts ih =>
      intro o hts ho
      have ht := hts t (by simp)
      have h1 : (runner S D dr g sq run o t).1.a.par = some v := by
        have h2 := finishSet_par (S := S) (dr := dr) (g := g) (sq := sq) h hv o
        have h3 := setPar_full (S := S) (dr := dr) (g := g) (sq := sq) h hv o
        unfold runner
        rw [ht, h3]
        rcases hf : finishSet S D dr g sq o v with ⟨o', e | r⟩
        · rw [hf] at h2; exact h2
        · rw [hf] at h2; exact h2
      unfold runMap
      rcases hr : runner S D dr g sq run o t with ⟨o', e | r⟩
      · rw [hr] at h1; exact h1
      · rw [hr] at h1
        have := ih o' (fun u hu => hts u (by simp [hu])) h1
        simp only
        rcases hm : runMap S D dr g sq run o' ts with ⟨o'', e | rs⟩
        · rw [hm] at this; exact this
        · rw [hm] at this; exact this
  constructor
  · intro hk hp
    unfold extract
    cases samples self.a.par sample with
    | error e => rfl
    | ok vs =>
      subst hk
      obtain ⟨⟨assign, order⟩, rfl⟩ := Option.ne_none_iff_exists'.1 hp
      simp only [Bool.false_eq_true, if_false]
      split <;> rfl
  · rintro rfl
    unfold extract
    cases hpar : self.a.par with
    | none => exact hpar
    | some v =>
      have hv : v.length = D.names.length := hself v hpar
      simp only [samples]
      have hk := key v hv (tasks [v] (rng (if kalman then 1 else n))) self (fun t ht => by simpa using tasks_mem ht) hpar
      split
      · rcases hm : runMap S D dr g sq run self (tasks [v] (rng (if kalman then 1 else n))) with ⟨o, e | rs⟩
        · rw [hm] at hk; exact hk
        · rw [hm] at hk; exact hk
      · split <;> exact hpar

/-- With `map`, the model is afterwards the one of the last vector. -/
theorem C120_last_sample_stays (h : WF D) (rng : Nat → List Seed) (self : Obj K PP VV HX LS TT QQ) (vs : List (List K)) (v : List K)
    (hv : v.length = D.names.length) (n : Nat) (s : Seed) (ss : List Seed) (hs : rng n = ss ++ [s])
    {out : List (List K × R)} (hok : (extract S D dr g sq run rng false none self (.many (vs ++ [v])) n).2 = .ok out) :
    (extract S D dr g sq run rng false none self (.many (vs ++ [v])) n).1.a.par = some v := by
  have key : ∀ (ts : List (List K × Seed)) (o : Obj K PP VV HX LS TT QQ) (rs : List (Option (List K × R))),
      (runMap S D dr g sq run o (ts ++ [(v, s)])).2 = .ok rs → (runMap S D dr g sq run o (ts ++ [(v, s)])).1.a.par = some v := by
    intro ts
    induction ts with
    | nil =>
      intro o rs hrs
      have h2 := finishSet_par (S := S) (dr := dr) (g := g) (sq := sq) h hv o
      have h3 := setPar_full (S := S) (dr := dr) (g := g) (sq := sq) h hv o
      have h1 : (runner S D dr g sq run o (v, s)).1.a.par = some v := by
        unfold runner
        rw [h3]
        rcases hf : finishSet S D dr g sq o v with ⟨o', e | r⟩
        · rw [hf] at h2; exact h2
        · rw [hf] at h2; exact h2
      rw [List.nil_append]
      unfold runMap
      rcases hr : runner S D dr g sq run o (v, s) with ⟨o', e | r⟩
      · rw [hr] at h1; exact h1
      · rw [hr] at h1; exact h1
    | cons t ts ih =>
      intro o rs hrs
      rw [List.cons_append] at hrs ⊢
      unfold runMap at hrs ⊢
      rcases hr : runner S D dr g sq run o t with ⟨o', e | r⟩
      · rw [hr] at hrs; cases hrs
      · rw [hr] at hrs
        simp only at hrs ⊢
        have := ih o'
        rcases hm : runMap S D dr g sq run o' (ts ++ [(v, s)]) with ⟨o'', e | rs'⟩
        · rw [hm] at hrs; cases hrs
        · rw [hm] at this
          exact this rs' rfl
  have hts : tasks (vs ++ [v]) (rng n) = (tasks vs (rng n) ++ ss.map fun y => (v, y)) ++ [(v, s)] := by
    unfold tasks
    rw [List.flatMap_append, hs]
    simp
  unfold extract at hok ⊢
  rw [samples_many (by simp)] at hok ⊢
  simp only [Bool.false_eq_true, if_false] at hok ⊢
  rw [hts] at hok ⊢
  have := key (tasks vs (rng n) ++ ss.map fun y => (v, y)) self
  rcases hm : runMap S D dr g sq run self ((tasks vs (rng n) ++ ss.map fun y => (v, y)) ++ [(v, s)]) with ⟨o, e | rs⟩
  · rw [hm] at hok; cases hok
  · rw [hm] at this
    exact this rs rfl

namespace ExtractEx

/-- A filter whose result is the sum of the solution and the seed, and fails without acceptance for the seed 13. -/
def filt (a : Attrs Rat (List Rat) String Rat Rat Rat Rat) (s : Nat) : Except PyErr (Option Rat) :=
  if s = 13 then .ok none
  else match a.tables with
    | none => .error .attributeError
    | some t => .ok (some (t + s))

def rng (n : Nat) : List Nat := (List.range n).map (12 + ·)

def ex (kalman : Bool) (pool : Option ((Nat → Nat) × List Nat)) (sample : Sample Rat) (n : Nat) :=
  extract ParEx.solver ParEx.decl ParEx.draws ⟨none, none, false⟩ id filt rng kalman pool ParEx.solved sample n

/-- Two vectors and three seeds (one of which gives nothing), distributed over two workers, done in some order. -/
example : (ex false (some (fun i => i % 2, [5, 0, 3, 2, 4, 1])) (.many [[0, 1, 1], [1, 0, 1/2]]) 3).2 =
    .ok [([0, 1, 1], 16), ([0, 1, 1], 18), ([1, 0, 1/2], 15), ([1, 0, 1/2], 17)] := by decide +kernel

/-- The same with vectors of the estimated parameters, one after the other. -/
example : (ex false none (.many [[1, 1], [1/2, 0]]) 3).2 =
    .ok [([1, 1], 16), ([1, 1], 18), ([1/2, 0], 13), ([1/2, 0], 15)] := by decide +kernel

/-- A vector for which the model has no solution: the exception comes out, also from a worker. -/
example : (ex false (some (fun i => i % 2, [1, 0])) (.many [[0, 1, 1], [2, 0, 1/2]]) 1).2 = .error .linAlg := by decide +kernel

/-- The hypotheses of C119. -/
theorem hyps : ParOK ParEx.decl ParEx.solved ∧ Spec.Uniform ParEx.decl [[0, 1, 1], [1, 0, 1/2]] ∧ Spec.Uniform ParEx.decl [[1, 1], [1/2, 0]] ∧
    ∀ i < 2 * (rng 3).length, i ∈ [5, 0, 3, 2, 4, 1] := by
  refine ⟨?_, .inl ?_, .inr ⟨_, rfl, ?_, ?_⟩, ?_⟩
  · intro v hv
    rw [ParEx.solved_par, Option.some.injEq] at hv
    rw [← hv]; rfl
  all_goals decide

end ExtractEx

/-- A mixture of vectors of both kinds is excluded in C119 for a reason: what a vector of estimated parameters means then depends on the worker. -/
theorem C119_mixture_needs_uniform :
    (ExtractEx.ex false none (.many [[1, 1, 1], [1/2, 0]]) 1).2 ≠
      (ExtractEx.ex false (some (fun i => i, [0, 1])) (.many [[1, 1, 1], [1/2, 0]]) 1).2 := by decide +kernel

/-- **C120** refuted: with the Kalman filter (or without a pool), `extract` for another vector leaves the model with this vector. -/
theorem C120_parameters_kept_refuted :
    (∃ out, (ExtractEx.ex true (some (fun i => i, [0])) (.many [[0, 1, 1]]) 1).2 = .ok out) ∧
    ParEx.solved.a.par = some [0, 1/2, 1/4] ∧
    (ExtractEx.ex true (some (fun i => i, [0])) (.many [[0, 1, 1]]) 1).1.a.par = some [0, 1, 1] := by
  refine ⟨⟨[([0, 1, 1], 16)], ?_⟩, ?_, ?_⟩ <;> decide +kernel

end Pydsge
