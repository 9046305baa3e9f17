import Verif.Props.ParSets

/-!
# C117, C118: what a call of `set_par` decides
-/

set_option autoImplicit false
set_option linter.unusedSectionVars false
set_option linter.unusedSimpArgs false

namespace Pydsge

open Pydsge.Params

variable {K PP VV HX LS TT QQ : Type}

section
variable [Field K] [LinearOrder K] {S : Solver K PP VV HX LS TT QQ} {D : Decl K} {dr : Draws K} {g : GenArgs} {sq : QQ → QQ}
  {ob : Obj K PP VV HX LS TT QQ}

/-- Whether `gen_sys` raises, and what, depends on the vector and the size of the tables. -/
theorem genSysYaml_err (a₁ a₂ : Attrs K PP VV HX LS TT QQ) (v : List K)
    (hl : GenSys.newLks g.lMax g.kMax a₁.lks = GenSys.newLks g.lMax g.kMax a₂.lks) :
    (genSysYaml S D g a₁ (some v)).2 = (genSysYaml S D g a₂ (some v)).2 := by
  unfold genSysYaml
  simp only
  cases S.pcompile v with
  | error e => rfl
  | ok pp =>
    simp only
    cases S.constVar with
    | false => rfl
    | true =>
      simp only [Bool.not_true, Bool.false_eq_true, if_false]
      cases S.xbar v with
      | error e => rfl
      | ok xb =>
        simp only
        by_cases h4 : xb > 0
        · simp only [h4, if_true]
        · simp only [h4, if_false]
          cases S.mats pp with
          | error e => rfl
          | ok _ =>
            simp only [hl]
            cases GenSys.newLks g.lMax g.kMax a₂.lks with
            | error e => rfl
            | ok lks =>
              simp only
              cases S.masks pp with
              | error e => rfl
              | ok m =>
                simp only
                cases g.hxOnly with
                | true => rfl
                | false =>
                  simp only [Bool.false_eq_true, if_false]
                  cases S.linear pp xb with
                  | error e => rfl
                  | ok ls =>
                    simp only
                    cases S.tables pp xb lks with
                    | error e => rfl
                    | ok t => rfl

/-- ... and all attributes but the filter, if it succeeds. -/
theorem genSysYaml_attrs (a₁ a₂ : Attrs K PP VV HX LS TT QQ) (v : List K) (hx0 : g.hxOnly = false)
    (hl : GenSys.newLks g.lMax g.kMax a₁.lks = GenSys.newLks g.lMax g.kMax a₂.lks)
    (h : (genSysYaml S D g a₁ (some v)).2 = none) :
    (genSysYaml S D g a₂ (some v)).1 = { (genSysYaml S D g a₁ (some v)).1 with filterQ := a₂.filterQ } ∧
      (genSysYaml S D g a₁ (some v)).1.filterQ = a₁.filterQ := by
  unfold genSysYaml at h ⊢
  simp only at h ⊢
  cases h1 : S.pcompile v with
  | error e => simp [h1] at h
  | ok pp =>
    simp only [h1] at h ⊢
    cases h2 : S.constVar with
    | false => simp [h2] at h
    | true =>
      simp only [h2, Bool.not_true, Bool.false_eq_true, if_false] at h ⊢
      cases h3 : S.xbar v with
      | error e => simp [h3] at h
      | ok xb =>
        simp only [h3] at h ⊢
        by_cases h4 : xb > 0
        · simp [h4] at h
        · simp only [h4, if_false] at h ⊢
          cases h5 : S.mats pp with
          | error e => simp [h5] at h
          | ok _ =>
            simp only [h5, ← hl] at h ⊢
            cases h6 : GenSys.newLks g.lMax g.kMax a₁.lks with
            | error e => simp [h6] at h
            | ok lks =>
              simp only [h6] at h ⊢
              cases h7 : S.masks pp with
              | error e => simp [h7] at h
              | ok m =>
                obtain ⟨vv, hx⟩ := m
                simp only [h7, hx0, Bool.false_eq_true, if_false] at h ⊢
                cases h8 : S.linear pp xb with
                | error e => simp [h8] at h
                | ok ls =>
                  simp only [h8] at h ⊢
                  cases h9 : S.tables pp xb lks with
                  | error e => simp [h9] at h
                  | ok t =>
                    simp only [h9] at h ⊢
                    simp

/-- What is kept whatever happens: the size of the tables (if it is not asked for another) and whether there is a filter. -/
structure SameFrame (a₁ a₂ : Attrs K PP VV HX LS TT QQ) : Prop where
  lks : a₁.lks = a₂.lks
  filter : a₁.filterQ.isSome = a₂.filterQ.isSome

theorem SameFrame.rfl' {a : Attrs K PP VV HX LS TT QQ} : SameFrame a a := ⟨rfl, rfl⟩

theorem SameFrame.trans {a b c : Attrs K PP VV HX LS TT QQ} (h1 : SameFrame a b) (h2 : SameFrame b c) : SameFrame a c :=
  ⟨h1.lks.trans h2.lks, h1.filter.trans h2.filter⟩

theorem newLks_keep {L : Int × Int} : GenSys.newLks none none (some L) = .ok L := rfl

theorem genSysYaml_frame {a : Attrs K PP VV HX LS TT QQ} {L : Int × Int} (hL : a.lks = some L) (hg : g.lMax = none ∧ g.kMax = none)
    (par : Option (List K)) : SameFrame (genSysYaml S D g a par).1 a := by
  unfold genSysYaml
  simp only [hg.1, hg.2, hL, newLks_keep]
  repeat' split
  all_goals exact ⟨by simp [hL], by simp⟩

theorem finishSet_eq (h : WF D) {v : List K} (hv : v.length = D.names.length) (ob : Obj K PP VV HX LS TT QQ) :
    finishSet S D dr g sq ob v = match genSysYaml S D g ob.a (some v) with
      | (a, some e) => ({ ob with a := a }, .error e)
      | (a, none) => ({ ob with a := match a.filterQ, a.ppar with
          | some _, some pp => { a with filterQ := some (sq (S.cov pp)) }
          | _, _ => a }, .ok (.vec v)) := by
  unfold finishSet
  have hp : (genSysYaml S D g ob.a (some v)).1.par = some v := by
    unfold genSysYaml
    simp only
    repeat' split
    all_goals rfl
  rcases hg : genSysYaml S D g ob.a (some v) with ⟨a, e⟩
  rw [hg] at hp
  simp only at hp
  cases e with
  | some e => rfl
  | none =>
    simp only
    cases h1 : a.filterQ <;> cases h2 : a.ppar <;> simp only <;> rw [getPar_none h (v := v) (by exact hp) hv 1]

/-- `set_par` with a vector: everything it decides is decided by the vector, the size of the tables and whether there is a filter. -/
theorem finishSet_congr (h : WF D) {v : List K} (hv : v.length = D.names.length) (hx0 : g.hxOnly = false) (o₁ o₂ : Obj K PP VV HX LS TT QQ)
    (hl : GenSys.newLks g.lMax g.kMax o₁.a.lks = GenSys.newLks g.lMax g.kMax o₂.a.lks)
    (hf : o₁.a.filterQ.isSome = o₂.a.filterQ.isSome) :
    (finishSet S D dr g sq o₁ v).2 = (finishSet S D dr g sq o₂ v).2 ∧
    ∀ r, (finishSet S D dr g sq o₁ v).2 = .ok r → (finishSet S D dr g sq o₁ v).1.a = (finishSet S D dr g sq o₂ v).1.a := by
  rw [finishSet_eq h hv o₁, finishSet_eq h hv o₂]
  have he := genSysYaml_err (S := S) (D := D) o₁.a o₂.a v hl
  have ha := genSysYaml_attrs (S := S) (D := D) o₁.a o₂.a v hx0 hl
  rcases h1 : genSysYaml S D g o₁.a (some v) with ⟨a₁, e₁⟩
  rcases h2 : genSysYaml S D g o₂.a (some v) with ⟨a₂, e₂⟩
  rw [h1, h2] at he ha
  simp only at he ha
  subst he
  cases e₁ with
  | some e => exact ⟨rfl, by simp⟩
  | none =>
    refine ⟨rfl, fun r _ => ?_⟩
    obtain ⟨h3, h4⟩ := ha rfl
    simp only
    rw [h3]
    cases hq1 : o₁.a.filterQ with
    | none =>
      have hq2 : o₂.a.filterQ = none := by rw [hq1] at hf; simpa using hf.symm
      rw [hq1] at h4
      simp only [h4, hq2]
      rw [← h4]
    | some q =>
      obtain ⟨q', hq2⟩ : ∃ q', o₂.a.filterQ = some q' := by
        rw [hq1] at hf
        exact Option.isSome_iff_exists.1 hf.symm
      rw [hq1] at h4
      simp only [h4, hq2]
      cases hp : a₁.ppar with
      | some pp => rfl
      | none =>
        exfalso
        have := genSysYaml_sync (S := S) (D := D) (g := g) o₁.a v hx0 (by rw [h1])
        obtain ⟨pp, _, _, _, _, _, _, h5, _⟩ := this
        rw [h1] at h5
        simp only at h5
        rw [h5] at hp
        cases hp

theorem namedSet_frame (ob : Obj K PP VV HX LS TT QQ) (s : String) (n : Nat) : SameFrame (namedSet D dr ob s n).1.a ob.a := by
  unfold namedSet
  simp only
  repeat' split
  all_goals exact ⟨rfl, rfl⟩

theorem bestSet_frame (ob : Obj K PP VV HX LS TT QQ) : SameFrame (bestSet D dr ob).1.a ob.a := by
  unfold bestSet
  have h1 := namedSet_frame (D := D) (dr := dr) ob "mode" 1
  rcases hb : namedSet D dr ob "mode" 1 with ⟨ob', res⟩
  rw [hb] at h1
  cases res with
  | ok c => exact h1
  | error e => exact (namedSet_frame ob' "init" 1).trans h1

theorem startPars_frame (ob : Obj K PP VV HX LS TT QQ) {L : Int × Int} (hL : ob.a.lks = some L) (hg : g.lMax = none ∧ g.kMax = none)
    (npar : Option (List K)) : SameFrame (startPars S D g ob npar).1.a ob.a := by
  unfold startPars
  cases hp : ob.a.par with
  | some v =>
    simp only
    repeat' split
    all_goals exact ⟨rfl, rfl⟩
  | none =>
    have := genSysYaml_frame (S := S) (D := D) hL hg none
    rcases hb : genSysYaml S D g ob.a none with ⟨a, e⟩
    rw [hb] at this
    simp only
    repeat' split
    all_goals exact this

theorem getPar_frame (ob : Obj K PP VV HX LS TT QQ) {L : Int × Int} (hL : ob.a.lks = some L) (hg : g.lMax = none ∧ g.kMax = none)
    (d : Dummy K) (npar : Option (List K)) (full : Bool) (n : Nat) : SameFrame (getPar S D dr g ob d npar full n).1.a ob.a := by
  unfold getPar
  have h1 := startPars_frame (S := S) (D := D) ob hL hg npar
  rcases hb : startPars S D g ob npar with ⟨o1, res⟩
  rw [hb] at h1
  simp only at h1
  cases res with
  | error e => exact h1
  | ok pars =>
    have hL1 : o1.a.lks = some L := by rw [h1.lks, hL]
    have hbest := bestSet_frame (D := D) (dr := dr) o1
    have hbest' := hbest.trans h1
    simp only
    cases d with
    | none =>
      simp only
      cases takePrior D pars with
      | ok c => exact h1
      | error e =>
        simp only
        rcases hbb : bestSet D dr o1 with ⟨o2, r2⟩
        rw [hbb] at hbest'
        cases r2 <;> exact hbest'
    | vec v =>
      simp only
      repeat' split
      all_goals exact h1
    | str s =>
      simp only
      cases D.names.idxOf? s with
      | some i => exact h1
      | none =>
        simp only
        cases D.pfNames.idxOf? s with
        | some i => exact h1
        | none =>
          simp only
          by_cases hs1 : s = "cov_mat"
          · rw [if_pos hs1]
            have h2 := (genSysYaml_frame (S := S) (D := D) hL1 hg (some pars)).trans h1
            rcases hbb : genSysYaml S D g o1.a (some pars) with ⟨a2, r2⟩
            rw [hbb] at h2
            cases r2 <;> exact h2
          rw [if_neg hs1]
          by_cases hs2 : s = "best"
          · rw [if_pos hs2]
            rcases hbb : bestSet D dr o1 with ⟨o2, r2⟩
            rw [hbb] at hbest'
            cases r2 <;> exact hbest'
          · rw [if_neg hs2]
            have h2 := (namedSet_frame (D := D) (dr := dr) o1 s n).trans h1
            rcases hbb : namedSet D dr o1 s n with ⟨o2, r2⟩
            rw [hbb] at h2
            cases r2 <;> exact h2

theorem finishSet_frame (ob : Obj K PP VV HX LS TT QQ) {L : Int × Int} (hL : ob.a.lks = some L) (hg : g.lMax = none ∧ g.kMax = none)
    (v : List K) : SameFrame (finishSet S D dr g sq ob v).1.a ob.a := by
  unfold finishSet
  have h1 := genSysYaml_frame (S := S) (D := D) hL hg (some v)
  rcases hb : genSysYaml S D g ob.a (some v) with ⟨a, e⟩
  rw [hb] at h1
  simp only at h1
  cases e with
  | some e => exact h1
  | none =>
    simp only
    have hL1 : a.lks = some L := by rw [h1.lks, hL]
    split
    · rename_i q pp hq hpp
      refine (getPar_frame _ (L := L) (by simpa using hL1) ⟨rfl, rfl⟩ _ _ _ _).trans ⟨h1.lks, ?_⟩
      rw [← h1.filter, hq]
      rfl
    · exact (getPar_frame _ (L := L) (by simpa using hL1) ⟨rfl, rfl⟩ _ _ _ _).trans h1

theorem setPar_frame (ob : Obj K PP VV HX LS TT QQ) {L : Int × Int} (hL : ob.a.lks = some L) (hg : g.lMax = none ∧ g.kMax = none)
    (d : Dummy K) (x : Option K) : SameFrame (setPar S D dr g sq ob d x).1.a ob.a := by
  have via : SameFrame (match getPar S D dr g ob d none true 1 with
      | (ob, .error e) => ((ob, .error e) : Obj K PP VV HX LS TT QQ × Except PyErr (ParVal K QQ))
      | (ob, .ok (.vec v)) => finishSet S D dr g sq ob v
      | (ob, .ok (.scalar _)) => (ob, .error .typeError)
      | (ob, .ok _) => ({ ob with a := { ob.a with par := some [] } }, .error .valueError)).1.a ob.a := by
    have h1 := getPar_frame (S := S) (D := D) (dr := dr) ob hL hg d none true 1
    rcases hb : getPar S D dr g ob d none true 1 with ⟨o1, res⟩
    rw [hb] at h1
    simp only at h1
    cases res with
    | error e => exact h1
    | ok r =>
      cases r with
      | vec v => exact (finishSet_frame o1 (L := L) (by rw [h1.lks, hL]) hg v).trans h1
      | _ => exact ⟨h1.lks, h1.filter⟩
  unfold setPar
  simp only
  cases x with
  | some x =>
    cases d with
    | none => exact ⟨rfl, rfl⟩
    | vec v => exact ⟨rfl, rfl⟩
    | str s =>
      simp only
      cases D.names.idxOf? s with
      | none => exact ⟨rfl, rfl⟩
      | some i => exact finishSet_frame ob hL hg _
  | none =>
    cases d with
    | none => exact via
    | vec v =>
      simp only
      split_ifs
      · exact finishSet_frame ob hL hg _
      · cases D.prior with
        | none => exact ⟨rfl, rfl⟩
        | some p =>
          simp only
          split_ifs
          · cases fancySet (curPar D ob.a) p.arg v with
            | error e => exact ⟨rfl, rfl⟩
            | ok w => exact finishSet_frame ob hL hg _
          · exact via
    | str s =>
      simp only
      split_ifs
      · exact ⟨rfl, rfl⟩
      · cases D.prior with
        | none => exact ⟨rfl, rfl⟩
        | some p =>
          simp only
          split_ifs
          · exact ⟨rfl, rfl⟩
          · exact via

/-- The call does not ask for tables of another size. -/
def ParOp.KeepsTables : ParOp K → Prop
  | .set _ _ g => g.lMax = none ∧ g.kMax = none
  | .get _ _ _ g => g.lMax = none ∧ g.kMax = none

theorem ops_frame {L : Int × Int} : ∀ (ops : List (ParOp K)) (ob : Obj K PP VV HX LS TT QQ), ob.a.lks = some L → (∀ op ∈ ops, op.KeepsTables) →
    SameFrame (ops.foldl (ParOp.run S D dr sq) ob).a ob.a
  | [], _, _, _ => ⟨rfl, rfl⟩
  | op :: ops, ob, hL, hops => by
    have h1 : SameFrame (op.run S D dr sq ob).a ob.a := by
      have := hops op (by simp)
      cases op with
      | set d x g => exact setPar_frame ob hL this d x
      | get d full n g => exact getPar_frame ob hL this d none full n
    exact (ops_frame ops _ (by rw [h1.lks, hL]) fun o ho => hops o (by simp [ho])).trans h1

/-- **C117**: `set_par` with a complete vector of parameters has the same outcome and leaves the same model, whatever calls of `set_par` and
`get_par` (also such that failed) came before, as long as none of them changed the size of the tables. -/
theorem C117_complete_vector_decides (h : WF D) (ob : Obj K PP VV HX LS TT QQ) {L : Int × Int} (hL : ob.a.lks = some L) (ops : List (ParOp K))
    (hops : ∀ op ∈ ops, op.KeepsTables) (v : List K) (hv : v.length = D.names.length) (hx0 : g.hxOnly = false) :
    (setPar S D dr g sq (ops.foldl (ParOp.run S D dr sq) ob) (.vec v) none).2 = (setPar S D dr g sq ob (.vec v) none).2 ∧
    ∀ r, (setPar S D dr g sq ob (.vec v) none).2 = .ok r →
      r = .vec v ∧ (setPar S D dr g sq (ops.foldl (ParOp.run S D dr sq) ob) (.vec v) none).1.a = (setPar S D dr g sq ob (.vec v) none).1.a := by
  have hset : ∀ o : Obj K PP VV HX LS TT QQ, setPar S D dr g sq o (.vec v) none = finishSet S D dr g sq o v := by
    intro o
    unfold setPar
    simp only
    rw [if_pos (by rw [hv, h.len])]
  have hfr := ops_frame (S := S) (D := D) (dr := dr) (sq := sq) ops ob hL hops
  rw [hset, hset]
  have := finishSet_congr (S := S) (dr := dr) (sq := sq) h hv hx0 ob (ops.foldl (ParOp.run S D dr sq) ob) (by rw [hfr.lks]) hfr.filter.symm
  refine ⟨this.1.symm, fun r hr => ⟨?_, (this.2 r hr).symm⟩⟩
  rw [finishSet_eq h hv ob] at hr
  split at hr
  · cases hr
  · cases hr; rfl

/-! ## Estimated parameters only -/

theorem setPar_full (h : WF D) {v : List K} (hv : v.length = D.names.length) (o : Obj K PP VV HX LS TT QQ) :
    setPar S D dr g sq o (.vec v) none = finishSet S D dr g sq o v := by
  unfold setPar
  simp only
  rw [if_pos (by rw [hv, h.len])]

theorem setPar_est (h : WF D) {p : Prior K} (hp : D.prior = some p) {w : List K} (hw : w.length = p.names.length)
    (hne : p.names.length ≠ D.names.length) (o : Obj K PP VV HX LS TT QQ) (ho : ParOK D o) :
    setPar S D dr g sq o (.vec w) none = finishSet S D dr g sq o (setMany (curPar D o.a) p.arg w) := by
  have hb : ∀ i ∈ p.arg, i < (curPar D o.a).length := by rw [curPar_length h ho]; exact h.bound hp
  unfold setPar
  simp only
  rw [if_neg (by rw [hw, h.len]; exact hne), hp]
  simp only
  rw [if_pos (by rw [hw, h.argLen hp]), fancySet_ok _ _ _ hb (by rw [hw, h.argLen hp])]

theorem curPar_of {a : Attrs K PP VV HX LS TT QQ} {v : List K} (h : a.par = some v) : curPar D a = v := by
  unfold curPar
  rw [h]

/-- `set_par` always stores the vector that it was asked for. -/
theorem finishSet_par (h : WF D) {v : List K} (hv : v.length = D.names.length) (o : Obj K PP VV HX LS TT QQ) :
    (finishSet S D dr g sq o v).1.a.par = some v := by
  rw [finishSet_eq h hv o]
  have hp : (genSysYaml S D g o.a (some v)).1.par = some v := by
    unfold genSysYaml
    simp only
    repeat' split
    all_goals rfl
  rcases hg : genSysYaml S D g o.a (some v) with ⟨a, e⟩
  rw [hg] at hp
  cases e with
  | some e => exact hp
  | none =>
    simp only
    split <;> exact hp

theorem setMany_twice {α : Type} (v : List α) (arg : List Nat) (w₁ w₂ : List α) (hn : arg.Nodup) (h1 : arg.length = w₁.length)
    (h2 : arg.length = w₂.length) (hb : ∀ i ∈ arg, i < v.length) : setMany (setMany v arg w₁) arg w₂ = setMany v arg w₂ := by
  apply List.ext_getElem?
  intro n
  by_cases hm : n ∈ arg
  · obtain ⟨j, hj⟩ := List.getElem?_of_mem hm
    rw [setMany_get _ arg w₂ hn h2 (by rw [setMany_length]; exact hb) j n hj, setMany_get _ arg w₂ hn h2 hb j n hj]
  · rw [setMany_get_ne _ _ _ _ hm, setMany_get_ne _ _ _ _ hm, setMany_get_ne _ _ _ _ hm]

/-- **C117**, for vectors of estimated parameters: the outcome of `set_par` with such a vector does not depend on earlier calls with such
vectors (also if they failed). -/
theorem C117_estimated_vectors (h : WF D) {p : Prior K} (hp : D.prior = some p) (hne : p.names.length ≠ D.names.length)
    (ob : Obj K PP VV HX LS TT QQ) (ho : ParOK D ob) {L : Int × Int} (hL : ob.a.lks = some L) (hg : g.lMax = none ∧ g.kMax = none)
    (hx0 : g.hxOnly = false) (ws : List (List K)) (hws : ∀ w ∈ ws, w.length = p.names.length) (w : List K) (hw : w.length = p.names.length) :
    let o₂ := ws.foldl (fun o u => (setPar S D dr g sq o (.vec u) none).1) ob
    (setPar S D dr g sq o₂ (.vec w) none).2 = (setPar S D dr g sq ob (.vec w) none).2 ∧
    ∀ r, (setPar S D dr g sq ob (.vec w) none).2 = .ok r →
      (setPar S D dr g sq o₂ (.vec w) none).1.a = (setPar S D dr g sq ob (.vec w) none).1.a := by
  have key : ∀ (ws : List (List K)) (o : Obj K PP VV HX LS TT QQ), ParOK D o → o.a.lks = some L → (∀ w ∈ ws, w.length = p.names.length) →
      let o₂ := ws.foldl (fun o u => (setPar S D dr g sq o (.vec u) none).1) o
      ParOK D o₂ ∧ SameFrame o₂.a o.a ∧ setMany (curPar D o₂.a) p.arg w = setMany (curPar D o.a) p.arg w := by
    intro ws
    induction ws with
    | nil => intro o ho _ _; exact ⟨ho, ⟨rfl, rfl⟩, rfl⟩
    | cons u us ih =>
      intro o ho hL hws
      have hb : ∀ i ∈ p.arg, i < (curPar D o.a).length := by rw [curPar_length h ho]; exact h.bound hp
      have hul := hws u (by simp)
      have hlen : (setMany (curPar D o.a) p.arg u).length = D.names.length := by rw [setMany_length, curPar_length h ho]
      have hset := setPar_est (S := S) (dr := dr) (g := g) (sq := sq) h hp hul hne o ho
      have hpar := finishSet_par (S := S) (dr := dr) (g := g) (sq := sq) h hlen o
      have hfr := finishSet_frame (S := S) (D := D) (dr := dr) (sq := sq) o hL hg (setMany (curPar D o.a) p.arg u)
      rw [← hset] at hpar hfr
      obtain ⟨h1, h2, h3⟩ := ih (setPar S D dr g sq o (.vec u) none).1
        (by intro v hv; rw [hpar, Option.some.injEq] at hv; rw [← hv]; exact hlen) (by rw [hfr.lks, hL]) fun w hw => hws w (by simp [hw])
      refine ⟨h1, h2.trans hfr, h3.trans ?_⟩
      rw [show curPar D (setPar S D dr g sq o (.vec u) none).1.a = setMany (curPar D o.a) p.arg u from curPar_of hpar]
      exact setMany_twice _ _ _ _ (h.argNodup hp) (by rw [hul, h.argLen hp]) (by rw [hw, h.argLen hp]) hb
  intro o₂
  obtain ⟨h1, h2, h3⟩ := key ws ob ho hL hws
  have hlen : (setMany (curPar D ob.a) p.arg w).length = D.names.length := by rw [setMany_length, curPar_length h ho]
  rw [setPar_est h hp hw hne ob ho, setPar_est h hp hw hne o₂ h1, h3]
  have := finishSet_congr (S := S) (dr := dr) (g := g) (sq := sq) h hlen hx0 ob o₂ (by rw [h2.lks]) h2.filter.symm
  exact ⟨this.1.symm, fun r hr => (this.2 r hr).symm⟩

/-! ## C118 -/

theorem setPar_name {s : String} {i : Nat} (hi : D.names.idxOf? s = some i) (x : K) (o : Obj K PP VV HX LS TT QQ) :
    setPar S D dr g sq o (.str s) (some x) = finishSet S D dr g sq o ((curPar D o.a).set i x) := by
  unfold setPar
  simp only [hi]

/-- **C118**: two single parameters can be set in either order: the outcome of the second call and (if it succeeds) the model it leaves are the
same, even if the first call fails.  Setting a parameter a second time replaces the first value. -/
theorem C118_assignments_commute (h : WF D) (ob : Obj K PP VV HX LS TT QQ) (ho : ParOK D ob) {L : Int × Int} (hL : ob.a.lks = some L)
    (hg : g.lMax = none ∧ g.kMax = none) (hx0 : g.hxOnly = false) (s t : String) (hs : s ∈ D.names) (ht : t ∈ D.names) (x y : K) :
    let two (s : String) (x : K) (t : String) (y : K) :=
      setPar S D dr g sq (setPar S D dr g sq ob (.str s) (some x)).1 (.str t) (some y)
    (s ≠ t → (two s x t y).2 = (two t y s x).2 ∧ ∀ r, (two s x t y).2 = .ok r → (two s x t y).1.a = (two t y s x).1.a) ∧
    (two s x s y).2 = (setPar S D dr g sq ob (.str s) (some y)).2 ∧
    ∀ r, (two s x s y).2 = .ok r → (two s x s y).1.a = (setPar S D dr g sq ob (.str s) (some y)).1.a := by
  obtain ⟨i, hi, his⟩ := idxOf?_of_mem hs
  obtain ⟨j, hj, hjt⟩ := idxOf?_of_mem ht
  have hcl := curPar_length h ho
  have hlen : ∀ (k : Nat) (u : K), ((curPar D ob.a).set k u).length = D.names.length := fun k u => by rw [List.length_set, hcl]
  have hlen2 : ∀ (k k' : Nat) (u u' : K), (((curPar D ob.a).set k u).set k' u').length = D.names.length :=
    fun k k' u u' => by rw [List.length_set, hlen]
  have hcur : ∀ (k : Nat) (u : K), curPar D (finishSet S D dr g sq ob ((curPar D ob.a).set k u)).1.a = (curPar D ob.a).set k u := by
    intro k u
    exact curPar_of (finishSet_par h (hlen k u) ob)
  have hfr : ∀ (k : Nat) (u : K), SameFrame (finishSet S D dr g sq ob ((curPar D ob.a).set k u)).1.a ob.a := fun k u =>
    finishSet_frame ob hL hg _
  dsimp only
  refine ⟨fun hne => ?_, ?_⟩
  · have hij : i ≠ j := by
      rintro rfl
      rw [his, Option.some.injEq] at hjt
      exact hne hjt
    rw [setPar_name hi, setPar_name hj, setPar_name hj, setPar_name hi, hcur, hcur, List.set_comm _ _ hij]
    have := finishSet_congr (S := S) (dr := dr) (g := g) (sq := sq) h (hlen2 j i y x) hx0
      (finishSet S D dr g sq ob ((curPar D ob.a).set i x)).1 (finishSet S D dr g sq ob ((curPar D ob.a).set j y)).1
      (by rw [(hfr i x).lks, (hfr j y).lks]) ((hfr i x).filter.trans (hfr j y).filter.symm)
    exact this
  · rw [setPar_name hi, setPar_name hi, setPar_name hi, hcur, List.set_set]
    exact finishSet_congr (S := S) (dr := dr) (g := g) (sq := sq) h (hlen i y) hx0 _ ob (by rw [(hfr i x).lks]) (hfr i x).filter

end
/-! ## A concrete case -/

namespace LastWinsEx

/-- A named vector, a vector of estimated parameters, and a call that fails. -/
def hist : List (ParOp Rat) :=
  [.get (.str "prior_mean") true 1 ⟨none, none, false⟩, .set (.vec [7, 9]) none ⟨none, none, false⟩,
   .set (.str "a") (some 2) ⟨none, none, false⟩]

def after : ParEx.O := hist.foldl (ParOp.run ParEx.solver ParEx.decl ParEx.draws id) ParEx.solved

/-- The last call fails; the calls do change the model; and the hypotheses of C117 hold. -/
theorem C117_hypotheses_met :
    (setPar ParEx.solver ParEx.decl ParEx.draws ⟨none, none, false⟩ id ParEx.solved (.str "a") (some 2)).2 = .error .linAlg ∧
    after.a.par = some [2, 9, 7] ∧ ParEx.solved.a.lks.isSome ∧ (∀ op ∈ hist, op.KeepsTables) ∧
    (setPar ParEx.solver ParEx.decl ParEx.draws ⟨none, none, false⟩ id ParEx.solved (.vec [0, 1, 1]) none).2 = .ok (.vec [0, 1, 1]) ∧
    (setPar ParEx.solver ParEx.decl ParEx.draws ⟨none, none, false⟩ id ParEx.solved (.vec [1/2, 1/3]) none).2.isOk ∧
    (setPar ParEx.solver ParEx.decl ParEx.draws ⟨none, none, false⟩ id after (.vec [1/2, 1/3]) none).2 = .error .linAlg := by
  refine ⟨rfl, by decide +kernel, by decide +kernel, ?_, rfl, by decide +kernel, by decide +kernel⟩
  intro op hop
  simp only [hist, List.mem_cons, List.not_mem_nil, or_false] at hop
  rcases hop with rfl | rfl | rfl <;> exact ⟨rfl, rfl⟩

/-- C118 for `b` and `c`. -/
example :
    (setPar ParEx.solver ParEx.decl ParEx.draws ⟨none, none, false⟩ id
      (setPar ParEx.solver ParEx.decl ParEx.draws ⟨none, none, false⟩ id ParEx.solved (.str "b") (some 2)).1 (.str "c") (some 3)).1.a.par =
      some [0, 2, 3] ∧
    (setPar ParEx.solver ParEx.decl ParEx.draws ⟨none, none, false⟩ id
      (setPar ParEx.solver ParEx.decl ParEx.draws ⟨none, none, false⟩ id ParEx.solved (.str "c") (some 3)).1 (.str "b") (some 2)).1.a.par =
      some [0, 2, 3] := by constructor <;> decide +kernel

end LastWinsEx

end Pydsge
