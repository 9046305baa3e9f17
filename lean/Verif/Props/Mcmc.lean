import Verif.Model.Mcmc
import Verif.Props.Estim

/-!
# C46-C50, C75-C77: sampling, pools, settings
-/

set_option autoImplicit false
set_option linter.unusedSectionVars false
set_option linter.unusedSimpArgs false

namespace Pydsge

open Pydsge.Mcmc

/-! ## C46 -/

namespace Spec

/-- Draw `k` of step `s`, if there is one. -/
def draw {β : Type} (a : List (List β)) (s k : Nat) : Option β := (a[s]?).bind (·[k]?)

/-- Same numbers of steps and of walkers in each step. -/
def SameShape {β γ : Type} (a : List (List β)) (b : List (List γ)) : Prop := a.map List.length = b.map List.length

/-- `(f, x)` is a draw of highest log probability among those from step `n - tune` on, `n` being the number of steps. -/
def BestDraw {α X : Type} [LinearOrder α] (lp : List (List α)) (ch : List (List X)) (tune : Nat) (f : α) (x : X) : Prop :=
  (∃ s k, lp.length ≤ s + tune ∧ draw lp s k = some f ∧ draw ch s k = some x) ∧
    ∀ s k g, lp.length ≤ s + tune → draw lp s k = some g → g ≤ f

end Spec

theorem sliceFrom_neg {β : Type} (a : List β) {t : Nat} (ht : 0 < t) : sliceFrom a (-(t : Int)) = a.drop (a.length - t) := by
  have h : -(t : Int) < 0 := by omega
  unfold sliceFrom
  rw [if_neg (by omega : ¬ (0 : Int) ≤ -(t : Int))]
  simp

theorem argmaxFrom_spec {α : Type} [LinearOrder α] : ∀ (xs pre : List α) (best : Nat) (bv : α), pre[best]? = some bv → (∀ y ∈ pre, y ≤ bv) →
    ∃ v, (pre ++ xs)[argmaxFrom best bv pre.length xs]? = some v ∧ ∀ y ∈ pre ++ xs, y ≤ v
  | [], pre, best, bv, h1, h2 => ⟨bv, by simpa [argmaxFrom] using h1, by simpa using h2⟩
  | x :: xs, pre, best, bv, h1, h2 => by
    have e : pre ++ x :: xs = (pre ++ [x]) ++ xs := by simp
    have el : (pre ++ [x]).length = pre.length + 1 := by simp
    unfold argmaxFrom
    split_ifs with hx
    · rw [e, ← el]
      apply argmaxFrom_spec xs (pre ++ [x]) pre.length x (by simp)
      intro y hy
      rcases List.mem_append.1 hy with h | h
      · exact ((h2 y h).trans_lt hx).le
      · simp at h; exact h.le
    · rw [e, ← el]
      apply argmaxFrom_spec xs (pre ++ [x]) best bv
      · have : best < pre.length := by
          by_contra hb
          rw [List.getElem?_eq_none (by omega)] at h1
          cases h1
        rw [List.getElem?_append_left this]
        exact h1
      · intro y hy
        rcases List.mem_append.1 hy with h | h
        · exact h2 y h
        · simp at h; rw [h]; exact not_lt.1 hx

theorem argmax_spec {α : Type} [LinearOrder α] (l : List α) (hl : l ≠ []) : ∃ i v, argmax l = .ok i ∧ l[i]? = some v ∧ ∀ y ∈ l, y ≤ v := by
  cases l with
  | nil => exact absurd rfl hl
  | cons x xs =>
    obtain ⟨v, h1, h2⟩ := argmaxFrom_spec xs [x] 0 x rfl (by simp)
    exact ⟨_, v, rfl, by simpa using h1, by simpa using h2⟩

theorem sameShape_drop {β γ : Type} {a : List (List β)} {b : List (List γ)} (h : Spec.SameShape a b) (n : Nat) :
    Spec.SameShape (a.drop n) (b.drop n) := by
  unfold Spec.SameShape at *
  rw [List.map_drop, List.map_drop, h]

/-- The `i`-th entry of the flattened array is the same draw for arrays of the same shape. -/
theorem flatten_draw {β γ : Type} : ∀ (a : List (List β)) (b : List (List γ)) (i : Nat) (x : β), Spec.SameShape a b → a.flatten[i]? = some x →
    ∃ s k y, Spec.draw a s k = some x ∧ Spec.draw b s k = some y ∧ b.flatten[i]? = some y
  | [], b, i, x, _, hx => by simp at hx
  | r :: a, [], i, x, h, _ => by simp [Spec.SameShape] at h
  | r :: a, q :: b, i, x, h, hx => by
    simp only [Spec.SameShape, List.map_cons, List.cons.injEq] at h
    obtain ⟨h1, h2⟩ := h
    simp only [List.flatten_cons] at hx ⊢
    by_cases hi : i < r.length
    · rw [List.getElem?_append_left hi] at hx
      have hq : i < q.length := by omega
      refine ⟨0, i, q[i], by simpa [Spec.draw] using hx, by simp [Spec.draw, hq], ?_⟩
      rw [List.getElem?_append_left hq]
      exact List.getElem?_eq_getElem hq
    · rw [List.getElem?_append_right (by omega)] at hx
      obtain ⟨s, k, y, e1, e2, e3⟩ := flatten_draw a b (i - r.length) x h2 hx
      refine ⟨s + 1, k, y, by simpa [Spec.draw] using e1, by simpa [Spec.draw] using e2, ?_⟩
      rw [List.getElem?_append_right (by omega), ← h1]
      exact e3

theorem draw_mem_flatten {β : Type} {a : List (List β)} {s k : Nat} {x : β} (h : Spec.draw a s k = some x) : x ∈ a.flatten := by
  unfold Spec.draw at h
  cases hs : a[s]? with
  | none => rw [hs] at h; cases h
  | some r =>
    rw [hs] at h
    exact List.mem_flatten.2 ⟨r, List.mem_of_getElem? hs, List.mem_of_getElem? h⟩

theorem draw_drop {β : Type} (a : List (List β)) (n s k : Nat) : Spec.draw (a.drop n) s k = Spec.draw a (n + s) k := by
  simp [Spec.draw, List.getElem?_drop]

theorem modeOf_best {α X : Type} [LinearOrder α] (lp : List (List α)) (ch : List (List X)) (hs : Spec.SameShape lp ch) {t : Nat} (ht : 0 < t)
    (hne : (lp.drop (lp.length - t)).flatten ≠ []) : ∃ f x, modeOf lp ch (some (t : Int)) = .ok (f, x) ∧ Spec.BestDraw lp ch t f x := by
  have hlen : ch.length = lp.length := by
    have := congrArg List.length hs
    simpa using this.symm
  obtain ⟨i, f, h1, h2, h3⟩ := argmax_spec _ hne
  have hs' := sameShape_drop hs (lp.length - t)
  obtain ⟨s, k, x, e1, e2, e3⟩ := flatten_draw _ _ i f hs' h2
  refine ⟨f, x, ?_, ⟨lp.length - t + s, k, by omega, ?_, ?_⟩, ?_⟩
  · unfold modeOf
    simp only [sliceFrom_neg _ ht, hlen, h1, h2, e3]
  · rw [← draw_drop]; exact e1
  · rw [← draw_drop]; exact e2
  · intro s k g hsk hg
    apply h3
    apply draw_mem_flatten (s := s - (lp.length - t)) (k := k)
    rw [draw_drop]
    rw [← hg]
    congr 1
    by_cases hl : lp.length ≤ t
    · omega
    · omega

section
variable {K α B : Type} [LinearOrder α] [Field K] [LinearOrder K]

/-- **C46.** If `mcmc` returns at temperature one, for a chain of any size and any positive `tune`, the stored mode is a draw of
highest log probability among the last `tune` steps of all walkers of the sampler's chain. -/
theorem C46_mode (E : Env K α B) (s s' : St K α B) (a : Args K) (h : mcmc E s a = (s', .ok ())) (htemp : a.temp.getD 1 = 1)
    {t : Nat} (ht : 0 < t) (ha : a.tune = some (t : Int))
    (hshape : ∀ p b r f c f', E.run p b r f = .ok (c, f') → Spec.SameShape c.logProbs c.chain) :
    ∃ p b f c f' v x, E.run p b a.resume f = .ok (c, f') ∧ s'.modeF = some v ∧ s'.modeX = some x ∧
      Spec.BestDraw c.logProbs c.chain t v x := by
  revert h
  unfold mcmc
  rcases hp : poolStep E.cpus s.pool .mcmc with ⟨p, _ | e⟩
  swap
  · simp
  simp only
  by_cases h1 : p.pool = .missing
  · simp [h1]
  simp only [if_neg h1, if_pos htemp]
  cases hv : startValues E a (a.temp.getD 1) with
  | error e => simp
  | ok pn =>
    obtain ⟨p0, nw⟩ := pn
    simp only
    rcases ho : openBackend E a nw { s with pool := p } with ⟨s1, _ | path⟩
    · simp
    · simp only
      cases hr : E.run p0 path a.resume s1.files with
      | error e => simp
      | ok cf =>
        obtain ⟨c, f'⟩ := cf
        simp only
        have hs := hshape _ _ _ _ _ _ hr
        rw [ha]
        by_cases hne : (c.logProbs.drop (c.logProbs.length - t)).flatten = []
        · have : modeOf c.logProbs c.chain (some (t : Int)) = .error .valueError := by
            unfold modeOf
            simp only [sliceFrom_neg _ ht, hne, argmax]
          rw [this]
          simp
        · obtain ⟨f, x, hm, hb⟩ := modeOf_best c.logProbs c.chain hs ht hne
          rw [hm]
          intro h
          simp only [Prod.mk.injEq, and_true] at h
          subst h
          exact ⟨p0, path, _, c, f', f, x, hr, rfl, rfl, hb⟩

/-! ## C47 -/

/-- **C47 (negation).** With the default `tune=None` and without tempering `mcmc` never completes, whatever the sampler does. -/
theorem C47_default_refuted (E : Env K α B) (s : St K α B) (a : Args K) (ht : a.tune = none) (htemp : a.temp = none) :
    ∃ e, (mcmc E s a).2 = .error e := by
  unfold mcmc
  rcases hp : poolStep E.cpus s.pool .mcmc with ⟨p, _ | e⟩
  swap
  · exact ⟨e, rfl⟩
  simp only [htemp, Option.getD_none, if_true, ht]
  split_ifs with h1
  · exact ⟨_, rfl⟩
  cases hv : startValues E a 1 with
  | error e => exact ⟨e, rfl⟩
  | ok pn =>
    obtain ⟨p0, nw⟩ := pn
    simp only
    rcases ho : openBackend E a nw { s with pool := p } with ⟨s1, e | path⟩
    · exact ⟨e, rfl⟩
    · simp only
      cases hr : E.run p0 path a.resume s1.files with
      | error e => exact ⟨e, rfl⟩
      | ok cf => exact ⟨.typeError, rfl⟩

/-- **C47 (partial).** With an explicit, positive `tune`, `mcmc` completes if there is a pool (or a debug mode), the starting
values and the backend can be had, and the sampler completes with a chain of at least one draw in the last `tune` steps.
Missing: `tune=None`. -/
theorem C47_explicit_partial (E : Env K α B) (s : St K α B) (a : Args K) {t : Nat} (ht : 0 < t) (ha : a.tune = some (t : Int)) (n : Nat) (cl : Bool)
    (hpool : s.pool.debug = true ∨ s.pool.pool = .pool n cl)
    (hstart : a.p0 = none → a.resume = false → ∀ b, ∃ p, E.start b = .ok p)
    (hw : a.backend ≠ .off → a.resume = false → a.append = false → (a.p0 = none ∧ a.nwalks.getD 0 ≠ 0) ∨
      ∃ m, a.p0 = some (.mat m) ∧ m ≠ [])
    (hfresh : ∀ k d, ∃ b, E.fresh k d = .ok b)
    (hrun : ∀ p b r f, ∃ c f', E.run p b r f = .ok (c, f') ∧ Spec.SameShape c.logProbs c.chain ∧
      ∃ i k g, c.logProbs.length ≤ i + t ∧ Spec.draw c.logProbs i k = some g) :
    (mcmc E s a).2 = .ok () := by
  unfold mcmc
  have hp : ∃ p, poolStep E.cpus s.pool .mcmc = (p, none) ∧ p.pool ≠ .missing := by
    rcases hpool with h | h
    · exact ⟨⟨true, .none⟩, by simp [poolStep, h], by simp⟩
    · by_cases hd : s.pool.debug = true
      · exact ⟨⟨true, .none⟩, by simp [poolStep, hd], by simp⟩
      · have hr : refresh E.cpus (.pool n cl) = (.pool n false, none) := by simp [refresh, createPool]
        exact ⟨⟨s.pool.debug, .pool n false⟩, by simp [poolStep, hd, h, hr], by simp⟩
  obtain ⟨p, hp, hm⟩ := hp
  rw [hp]
  simp only [if_neg hm]
  have hv : ∃ p0 nw, startValues E a (a.temp.getD 1) = .ok (p0, nw) ∧
      (a.backend ≠ .off → a.resume = false → a.append = false → nw.getD 0 ≠ 0) := by
    unfold startValues
    cases h0 : a.p0 with
    | none =>
      cases hres : a.resume with
      | false =>
        obtain ⟨q, hq⟩ := hstart h0 hres (decide (a.temp.getD 1 < 1))
        refine ⟨some q, a.nwalks, by simp only [Bool.not_false, if_true, hq], fun h1 _ h3 => ?_⟩
        rcases hw h1 hres h3 with ⟨_, h⟩ | ⟨m, h, _⟩
        · exact h
        · rw [h0] at h; cases h
      | true => exact ⟨none, a.nwalks, by simp, fun _ h => by cases h⟩
    | some q =>
      cases hres : a.resume with
      | false =>
        refine ⟨_, _, by simp only [Bool.not_false, if_true]; rfl, fun h1 _ h3 => ?_⟩
        rcases hw h1 hres h3 with ⟨h, _⟩ | ⟨m, h, hm⟩
        · rw [h0] at h; cases h
        · rw [h0] at h
          cases h
          simpa using hm
      | true => exact ⟨_, a.nwalks, by simp only [Bool.not_true, Bool.false_eq_true, if_false]; rfl, fun _ h => by cases h⟩
  obtain ⟨p0, nw, hv, hnw⟩ := hv
  rw [hv]
  simp only
  have hb : ∃ s1 path, openBackend E a nw { s with pool := p } = (s1, .ok path) := by
    have hrb : a.backend ≠ .off → ∀ (s0 : St K α B) pt, ∃ s1 path, resetBackend E a nw s0 pt = (s1, .ok path) := by
      intro hbo s0 pt
      unfold resetBackend
      by_cases hra : (a.resume || a.append) = true
      · exact ⟨s0, some pt, by simp [hra]⟩
      · have hra' : (a.resume || a.append) = false := by simpa using hra
        have hn := hnw hbo (by simp at hra'; exact hra'.1) (by simp at hra'; exact hra'.2)
        obtain ⟨b, hb⟩ := hfresh (nw.getD 0) s0.ndim
        simp only [hra', hn, Bool.false_eq_true, if_false, hb]
        exact ⟨_, _, rfl⟩
    unfold openBackend
    cases hbk : a.backend with
    | off => exact ⟨_, _, rfl⟩
    | on => exact hrb (by simp [hbk]) _ _
    | file f =>
      simp only
      by_cases hf : f = ""
      · exact ⟨_, _, if_pos hf⟩
      · rw [if_neg hf]
        exact hrb (by simp [hbk]) _ _
  obtain ⟨s1, path, hb⟩ := hb
  rw [hb]
  simp only
  obtain ⟨c, f', hr, hs, i, k, g, hi, hd⟩ := hrun p0 path a.resume s1.files
  rw [hr]
  simp only
  split_ifs
  · have hne : (c.logProbs.drop (c.logProbs.length - t)).flatten ≠ [] := by
      intro h
      have : g ∈ (c.logProbs.drop (c.logProbs.length - t)).flatten := by
        apply draw_mem_flatten (s := i - (c.logProbs.length - t)) (k := k)
        rw [draw_drop, ← hd]
        congr 1
        omega
      rw [h] at this
      cases this
    obtain ⟨f, x, hm, _⟩ := modeOf_best c.logProbs c.chain hs ht hne
    rw [ha, hm]
  · rfl

/-! ## C48 -/

/-- **C48 (resume, append).** If the chain is to be resumed or appended to, no file is deleted or reset: up to the sampler the
files are those before the call, and if the sampler is not reached they are those after it. -/
theorem C48_resume (E : Env K α B) (s : St K α B) (a : Args K) (h : a.resume = true ∨ a.append = true) :
    (mcmc E s a).1.files = s.files ∨ ∃ p b c f', E.run p b a.resume s.files = .ok (c, f') ∧ (mcmc E s a).1.files = f' := by
  have hra : (a.resume || a.append) = true := by simpa using h
  have ho : ∀ nw (s0 : St K α B), (openBackend E a nw s0).1.files = s0.files := by
    intro nw s0
    have hr : ∀ (s1 : St K α B) pt, (resetBackend E a nw s1 pt).1 = s1 := by
      intro s1 pt; simp [resetBackend, hra]
    have hbp : ∀ s1 : St K α B, (backendPath E a s1).1 = s1 := by
      intro s1
      unfold backendPath
      simp only [hra, Bool.not_true, Bool.and_false, Bool.false_eq_true, if_false]
      split <;> rfl
    unfold openBackend
    cases a.backend with
    | off => rfl
    | on => simp only [hr, hbp]
    | file f =>
      simp only
      split_ifs
      · rfl
      · simp only [hr, hbp]
  unfold mcmc
  rcases hp : poolStep E.cpus s.pool .mcmc with ⟨p, _ | e⟩
  swap
  · exact .inl rfl
  simp only
  by_cases h1 : p.pool = .missing
  · simp [h1]
  simp only [if_neg h1]
  cases hv : startValues E a (a.temp.getD 1) with
  | error e => exact .inl rfl
  | ok pn =>
    obtain ⟨p0, nw⟩ := pn
    simp only
    have hf := ho nw { s with pool := p }
    rcases hb : openBackend E a nw { s with pool := p } with ⟨s1, e | path⟩ <;> rw [hb] at hf <;> simp only at hf
    · exact .inl hf
    · simp only
      cases hr : E.run p0 path a.resume s1.files with
      | error e => exact .inl hf
      | ok cf =>
        obtain ⟨c, f'⟩ := cf
        right
        refine ⟨p0, path, c, f', by rw [← hf]; exact hr, ?_⟩
        simp only
        by_cases ht : a.temp.getD 1 = 1
        · rw [if_pos ht]
          cases modeOf c.logProbs c.chain a.tune <;> rfl
        · rw [if_neg ht]

theorem openBackend_missing (E : Env K α B) (s : St K α B) (a : Args K) (nw : Option Nat) (hn : nw.getD 0 = 0)
    (hfile : s.backendFile ≠ none ∨ ∃ f, a.backend = .file f) :
    (openBackend E a nw s).1.files = s.files := by
  have hr : ∀ (s1 : St K α B) pt, (resetBackend E a nw s1 pt).1 = s1 := by
    intro s1 pt
    simp only [resetBackend, hn, if_true]
    split_ifs <;> rfl
  unfold openBackend
  cases hb : a.backend with
  | off => rfl
  | on =>
    rcases hfile with h | ⟨f, h⟩
    · cases hbf : s.backendFile with
      | none => exact absurd hbf h
      | some f => simp only [hr, backendPath, hbf]
    · rw [hb] at h; cases h
  | file f =>
    simp only
    split_ifs
    · rfl
    · simp only [hr, backendPath]

/-- **C48 (partial).** A call that lacks both starting values and the number of walkers (and is not to resume or append) raises and leaves all
files alone if a backend file has been chosen (by this or an earlier call, or in the model file). The error is a `TypeError` if there is a
pool and the starting values can be drawn. Missing: the default file, which is deleted first. -/
theorem C48_missing_partial (E : Env K α B) (s : St K α B) (a : Args K) (hp : a.p0 = none) (hn : a.nwalks.getD 0 = 0) (hb : a.backend ≠ .off ∧ a.backend ≠ .file "")
    (hr : a.resume = false) (ha : a.append = false) (hfile : s.backendFile ≠ none ∨ ∃ f, a.backend = .file f) :
    (mcmc E s a).1.files = s.files ∧ (∃ e, (mcmc E s a).2 = .error e) ∧
    (∀ n cl, s.pool.debug = false → s.pool.pool = .pool n cl → (∃ x, E.start (decide (a.temp.getD 1 < 1)) = .ok x) →
      (mcmc E s a).2 = .error .typeError) := by
  have hob : ∀ s0 : St K α B, (openBackend E a a.nwalks s0).2 = .error .typeError := by
    intro s0
    unfold openBackend
    cases hb' : a.backend with
    | off => exact absurd hb' hb.1
    | on => simp [resetBackend, hr, ha, hn]
    | file f =>
      have hf : f ≠ "" := by
        rintro rfl
        exact hb.2 hb'
      simp [resetBackend, hr, ha, hn, hf]
  unfold mcmc
  rcases hps : poolStep E.cpus s.pool .mcmc with ⟨p, _ | e⟩
  swap
  · refine ⟨rfl, ⟨e, rfl⟩, ?_⟩
    intro n cl hd hpl _
    rcases hs : s.pool with ⟨d, pl⟩
    rw [hs] at hps hd hpl
    simp only at hd hpl
    subst hd hpl
    simp [poolStep, refresh, createPool] at hps
  simp only
  by_cases h1 : p.pool = .missing
  · rw [if_pos h1]
    refine ⟨rfl, ⟨_, rfl⟩, ?_⟩
    intro n cl hd hpl _
    rcases hs : s.pool with ⟨d, pl⟩
    rw [hs] at hps hd hpl
    simp only at hd hpl
    subst hd hpl
    simp [poolStep, refresh, createPool] at hps
    rw [← hps] at h1
    cases h1
  · rw [if_neg h1]
    simp only [startValues, hp, hr, Bool.not_false, if_true]
    cases hst : E.start (decide (a.temp.getD 1 < 1)) with
    | error e =>
      refine ⟨rfl, ⟨_, rfl⟩, ?_⟩
      rintro n cl hd hpl ⟨x, hx⟩
      cases hx
    | ok x =>
      have h2 := hob { s with pool := p }
      have h3 := openBackend_missing E { s with pool := p } a a.nwalks hn hfile
      rcases ho : openBackend E a a.nwalks { s with pool := p } with ⟨s1, r⟩
      rw [ho] at h2 h3
      simp only at h2 h3
      subst h2
      simp only [ho]
      exact ⟨h3, ⟨_, rfl⟩, fun _ _ _ _ _ => trivial⟩

end

namespace McmcEx

/-- Two steps of two walkers; the best draw of the last step is not the best of all. -/
def chain : Chain ℚ ℚ := ⟨[[5, 1], [2, 3]], [[[50], [10]], [[20], [30]]]⟩

def env : Env ℚ ℚ Nat where
  cpus := 4
  path x := "m" ++ x
  start _ := .ok (.vec [1])
  fresh n _ := .ok n
  run _ _ _ f := .ok (chain, f)

def st : St ℚ ℚ Nat := ⟨1, ⟨false, .pool 4 false⟩, none, fun p => if p = "m_sampler.h5" then some 77 else none, none, none⟩

def args : Args ℚ := ⟨none, 2, some 2, some 1, none, .on, none, false, false⟩

/-- `C46_mode` and `C47_explicit_partial` on this chain: the mode of the last step. -/
example : (mcmc env st args).2 = .ok () ∧ (mcmc env st args).1.modeF = some 3 ∧ (mcmc env st args).1.modeX = some [30] := by
  decide +kernel

example : ∃ p b f c f' v x, env.run p b args.resume f = .ok (c, f') ∧ (mcmc env st args).1.modeF = some v ∧
    (mcmc env st args).1.modeX = some x ∧ Spec.BestDraw c.logProbs c.chain 1 v x :=
  C46_mode env st _ args (Prod.ext rfl (by decide +kernel)) rfl (by norm_num) rfl
    (by intro p b r f c f' h; cases h; rfl)

example : (mcmc env st args).2 = .ok () :=
  C47_explicit_partial env st args (t := 1) (by norm_num) rfl 4 false (.inr rfl) (fun _ _ b => ⟨_, rfl⟩)
    (fun _ _ _ => .inl ⟨rfl, by decide⟩) (fun k d => ⟨_, rfl⟩)
    (fun p b r f => ⟨chain, f, rfl, rfl, 1, 0, 2, by decide, rfl⟩)

/-- `C47`: with the defaults the sampler runs to the end and the call then fails. -/
example : (mcmc env st { args with tune := none }).2 = .error .typeError := by decide +kernel

end McmcEx

/-- **C48 (negation).** A call without `p0` and `nwalks` raises a `TypeError`, after having deleted the existing chain. -/
theorem C48_missing_refuted : ∃ (E : Env ℚ ℚ Nat) (s : St ℚ ℚ Nat) (a : Args ℚ), a.p0 = none ∧ a.nwalks = none ∧
    (mcmc E s a).2 = .error .typeError ∧ s.files "m_sampler.h5" = some 77 ∧ (mcmc E s a).1.files "m_sampler.h5" = none :=
  ⟨McmcEx.env, McmcEx.st, { McmcEx.args with nwalks := none }, rfl, rfl, by decide +kernel⟩

/-- `C48_resume` and `C48_missing_partial` on the example. -/
example : (mcmc McmcEx.env McmcEx.st { McmcEx.args with resume := true }).1.files "m_sampler.h5" = some 77 ∧
    (mcmc McmcEx.env McmcEx.st { McmcEx.args with nwalks := none, backend := .file "m_sampler.h5" }).1.files "m_sampler.h5" = some 77 :=
  ⟨by decide +kernel, by
    rw [(C48_missing_partial McmcEx.env McmcEx.st { McmcEx.args with nwalks := none, backend := .file "m_sampler.h5" } rfl rfl (by simp) rfl rfl
      (.inr ⟨_, rfl⟩)).1]; decide +kernel⟩

/-! ## C49 -/

/-- A call that sets the pool to `None` (in a given state). -/
def Spec.DropsPool (s : PoolSt) : PoolEv → Prop
  | .prepEstim debug ncores _ => debug = true ∨ ncores = some 0
  | .mcmc => s.debug = true
  | _ => False

/-- No call of the sequence sets the pool to `None`. -/
def Spec.Careful (cpus : Nat) : PoolSt → List PoolEv → Prop
  | _, [] => True
  | s, e :: l => ¬ Spec.DropsPool s e ∧ Spec.Careful cpus (poolStep cpus s e).1 l

theorem createPool_ok (cpus : Nat) (n : Option Nat) {p : PoolAttr} (h : p ≠ .none) :
    ∃ k, createPool cpus n p = (.pool k false, none) := by
  cases p with
  | missing => exact ⟨_, rfl⟩
  | none => exact absurd rfl h
  | pool k c => exact ⟨_, rfl⟩

theorem refresh_ok (cpus : Nat) {p : PoolAttr} (h : p ≠ .none) :
    ∃ q, refresh cpus p = (q, none) ∧ (q = .missing ∨ ∃ k, q = .pool k false) := by
  cases p with
  | missing => exact ⟨_, rfl, .inl rfl⟩
  | none => exact absurd rfl h
  | pool k c => exact ⟨_, rfl, .inr ⟨_, rfl⟩⟩

theorem useMapper_ok (d : Bool) {q : PoolAttr} (h : q = .missing ∨ ∃ k, q = .pool k false) : useMapper d q = none := by
  rcases h with rfl | ⟨k, rfl⟩ <;> simp [useMapper]

theorem poolStep_inv (cpus : Nat) (s : PoolSt) (e : PoolEv) (hs : s.pool ≠ .none) (he : ¬ Spec.DropsPool s e) :
    (poolStep cpus s e).1.pool ≠ .none := by
  cases e with
  | prepEstim debug ncores fails =>
    simp only [Spec.DropsPool, not_or, Bool.not_eq_true] at he
    obtain ⟨hd, hn⟩ := he
    subst hd
    unfold poolStep
    simp only
    split_ifs with h1 h2
    · exact hs
    · obtain ⟨k, hk⟩ := createPool_ok cpus ncores hs
      simp [hk]
    · exfalso
      apply h2
      cases ncores with
      | none => rfl
      | some n =>
        have : n ≠ 0 := by rintro rfl; exact hn rfl
        simpa using this
  | createPool n =>
    obtain ⟨k, hk⟩ := createPool_ok cpus n hs
    simp [poolStep, hk]
  | irfs d p =>
    obtain ⟨q, hq, h⟩ := refresh_ok cpus hs
    simp only [poolStep, hq]
    rcases h with rfl | ⟨k, rfl⟩ <;> simp
  | simulate d =>
    obtain ⟨q, hq, h⟩ := refresh_ok cpus hs
    simp only [poolStep, hq]
    rcases h with rfl | ⟨k, rfl⟩ <;> simp
  | extract d kf fails =>
    obtain ⟨q, hq, h⟩ := refresh_ok cpus hs
    simp only [poolStep, hq, useMapper_ok _ h]
    rcases h with rfl | ⟨k, rfl⟩ <;> cases fails <;> simp
  | priorSampler d =>
    unfold poolStep
    obtain ⟨q, hq, h⟩ := refresh_ok cpus hs
    cases d with
    | true => simpa using hs
    | false =>
      simp only [hq]
      rcases h with rfl | ⟨k, rfl⟩ <;> simp
  | mcmc =>
    have hd : s.debug = false := by simpa [Spec.DropsPool] using he
    obtain ⟨q, hq, h⟩ := refresh_ok cpus hs
    simp only [poolStep, hd, hq]
    rcases h with rfl | ⟨k, rfl⟩ <;> simp

/-- **C49 (partial).** A model starts without the attribute. After any sequence of calls of which none switches the pool off
(`prep_estim` with `debug` or `ncores=0`, `mcmc` in debug mode), `irfs` and `simulate` do not fail because of the pool. -/
theorem C49_usable_partial (cpus : Nat) (d : Bool) (l : List PoolEv) (hl : Spec.Careful cpus ⟨d, .missing⟩ l) (dbg pars : Bool) :
    (poolStep cpus (poolRun cpus ⟨d, .missing⟩ l) (.irfs dbg pars)).2 = none ∧
    (poolStep cpus (poolRun cpus ⟨d, .missing⟩ l) (.simulate dbg)).2 = none := by
  have inv : ∀ (l : List PoolEv) (s : PoolSt), s.pool ≠ .none → Spec.Careful cpus s l → (poolRun cpus s l).pool ≠ .none := by
    intro l
    induction l with
    | nil => intro s hs _; exact hs
    | cons e l ih =>
      intro s hs hc
      exact ih (poolStep cpus s e).1 (poolStep_inv cpus s e hs hc.1) hc.2
  have h := inv l ⟨d, .missing⟩ (by simp) hl
  obtain ⟨q, hq, hh⟩ := refresh_ok cpus h
  constructor
  · simp only [poolStep, hq, useMapper_ok _ hh]
    simp
  · simp only [poolStep, hq, useMapper_ok _ hh]

/-- `C49_usable_partial` is not about trivial sequences only. -/
example : Spec.Careful 4 ⟨false, .missing⟩ [.prepEstim false none false, .extract false false true, .irfs true true, .priorSampler false,
    .prepEstim false (some 2) true, .simulate false] := by
  simp [Spec.Careful, Spec.DropsPool]

/-- **C49 (negation).** After `prep_estim(ncores=0)`, or `prep_estim(debug=True)`, both `irfs` and `simulate` fail on `None`; it is not
possible either to create a pool again. -/
theorem C49_usable_refuted (cpus : Nat) (s : PoolSt) (e : PoolEv) (he : e = .prepEstim false (some 0) false ∨ e = .prepEstim true none false)
    (dbg pars : Bool) (n : Option Nat) :
    (poolStep cpus (poolStep cpus s e).1 (.irfs dbg pars)).2 = some .attributeError ∧
    (poolStep cpus (poolStep cpus s e).1 (.simulate dbg)).2 = some .attributeError ∧
    (poolStep cpus (poolStep cpus s e).1 (.createPool n)).2 = some .attributeError := by
  rcases he with rfl | rfl <;> simp [poolStep, refresh, createPool]

/-! ## C100 -/

/-- The argument `debug` of a call. -/
def Spec.debugArg : PoolEv → Bool
  | .prepEstim d _ _ | .irfs d _ | .simulate d | .extract d _ _ | .priorSampler d => d
  | .createPool _ | .mcmc => false

/-- An extraction with the Kalman filter that fails. -/
def Spec.FailingKF (cpus : Nat) (s : PoolSt) : PoolEv → Prop
  | .extract d true fails => fails = true ∨ (poolStep cpus s (.extract d true fails)).2 ≠ none
  | _ => False

/-- **C100 (partial).** A call without `debug=True` leaves the attribute as it is, unless it is an extraction with the Kalman filter that
fails; a successful extraction with the Kalman filter leaves it as it is whatever the argument. Missing: the other calls with
`debug=True`, and the failing extractions. -/
theorem C100_debug_partial (cpus : Nat) (s : PoolSt) (e : PoolEv) (hf : ¬ Spec.FailingKF cpus s e)
    (h : Spec.debugArg e = false ∨ ∃ d fails, e = .extract d true fails) : (poolStep cpus s e).1.debug = s.debug := by
  cases e with
  | extract d kf fails =>
    cases kf with
    | false =>
      have hd : d = false := by
        rcases h with h | ⟨d', f', h⟩
        · exact h
        · cases h
      subst hd
      simp only [poolStep]
      rcases hr : refresh cpus s.pool with ⟨q, _ | e⟩
      · simp only
        cases hu : useMapper (if false = true then true else s.debug || false) q with
        | none => cases fails <;> simp
        | some e => simp
      · rfl
    | true =>
      have hf' : ¬ (fails = true ∨ (poolStep cpus s (.extract d true fails)).2 ≠ none) := hf
      simp only [not_or, Bool.not_eq_true, not_not] at hf'
      obtain ⟨rfl, h2⟩ := hf'
      simp only [poolStep] at h2 ⊢
      rcases hr : refresh cpus s.pool with ⟨q, _ | e⟩
      · simp only [hr] at h2 ⊢
        cases hu : useMapper true q with
        | none => simp [hu]
        | some e => simp [hu] at h2
      · rfl
  | prepEstim d n fails =>
    have hd : d = false := by
      rcases h with h | ⟨d', f', h⟩
      · exact h
      · cases h
    subst hd
    simp only [poolStep]
    cases fails with
    | true => simp
    | false =>
      simp only [Bool.or_false, Bool.false_eq_true, if_false]
      split_ifs <;> rfl
  | createPool n => rfl
  | irfs d pars =>
    have hd : d = false := by
      rcases h with h | ⟨d', f', h⟩
      · exact h
      · cases h
    subst hd
    simp only [poolStep]
    rcases hr : refresh cpus s.pool with ⟨q, _ | e⟩ <;> simp
  | simulate d =>
    have hd : d = false := by
      rcases h with h | ⟨d', f', h⟩
      · exact h
      · cases h
    subst hd
    simp only [poolStep]
    rcases hr : refresh cpus s.pool with ⟨q, _ | e⟩ <;> simp
  | priorSampler d =>
    have hd : d = false := by
      rcases h with h | ⟨d', f', h⟩
      · exact h
      · cases h
    subst hd
    simp only [poolStep, Bool.false_eq_true, if_false]
    rcases hr : refresh cpus s.pool with ⟨q, _ | e⟩ <;> simp
  | mcmc =>
    simp only [poolStep]
    split_ifs with hd <;> simp_all

/-- `C100_debug_partial` covers successful and failing calls. -/
theorem C100_debug_hypotheses_met : ¬ Spec.FailingKF 4 ⟨false, .pool 4 true⟩ (.extract true true false) ∧
    ¬ Spec.FailingKF 4 ⟨false, .none⟩ (.irfs false true) ∧ (poolStep 4 ⟨false, .none⟩ (.irfs false true)).2 = some .attributeError := by
  refine ⟨?_, fun h => h, rfl⟩
  intro h
  rcases h with h | h
  · cases h
  · exact h rfl

/-- No call switches the debug mode off. -/
theorem debug_stays (cpus : Nat) (e : PoolEv) (p : PoolAttr) : (poolStep cpus ⟨true, p⟩ e).1.debug = true := by
  cases e with
  | prepEstim d n fails =>
    simp only [poolStep]
    split_ifs <;> simp
  | createPool n => rfl
  | irfs d pars => simp only [poolStep]; rcases refresh cpus p with ⟨q, _ | e⟩ <;> simp
  | simulate d => simp only [poolStep]; rcases refresh cpus p with ⟨q, _ | e⟩ <;> simp
  | extract d kf fails =>
    simp only [poolStep]
    rcases refresh cpus p with ⟨q, _ | e⟩
    · simp only
      split
      · simp
      · cases fails <;> simp
    · rfl
  | priorSampler d =>
    cases d with
    | true => simp [poolStep]
    | false => simp only [poolStep]; rcases hr : refresh cpus p with ⟨q, _ | e⟩ <;> simp [hr]
  | mcmc => simp [poolStep]

/-- **C100 (negation).** After `irfs(debug=True)`, `simulate(debug=True)` or an extraction with the Kalman filter that fails the model is in debug
mode, and it stays so whatever is called later. -/
theorem C100_debug_refuted (cpus : Nat) (l : List PoolEv) (e : PoolEv) (s : PoolSt) (hs : s.pool = .missing)
    (he : e = .irfs true false ∨ e = .simulate true ∨ e = .extract false true true) :
    (poolRun cpus s (e :: l)).debug = true := by
  have h1 : (poolStep cpus s e).1.debug = true := by
    obtain ⟨d, p⟩ := s
    simp only at hs
    subst hs
    rcases he with rfl | rfl | rfl <;> simp [poolStep, refresh, useMapper]
  have : ∀ (l : List PoolEv) (s : PoolSt), s.debug = true → (poolRun cpus s l).debug = true := by
    intro l
    induction l with
    | nil => intro s h; exact h
    | cons e l ih =>
      intro s h
      refine ih _ ?_
      obtain ⟨d, p⟩ := s
      simp only at h
      subst h
      exact debug_stays cpus e p
  exact this l _ h1

/-! ## C101 -/

/-- There are worker processes that wait for work. -/
def Spec.Running (s : PoolSt) : Prop := ∃ n, s.pool = .pool n false

/-- **C101 (partial).** After an extraction that does not fail no worker waits for work. Missing: extractions that fail. -/
theorem C101_closed_partial (cpus : Nat) (s : PoolSt) (d kf : Bool) (h : (poolStep cpus s (.extract d kf false)).2 = none) :
    ¬ Spec.Running (poolStep cpus s (.extract d kf false)).1 := by
  rintro ⟨n, hn⟩
  simp only [poolStep] at h hn
  rcases hr : refresh cpus s.pool with ⟨q, _ | e⟩
  · simp only [hr] at h hn
    cases hu : useMapper (if kf = true then true else s.debug || d) q with
    | none =>
      simp only [hu] at hn
      cases q <;> simp at hn
    | some e =>
      simp only [hu] at h
      cases h
  · simp [hr] at h

/-- `C101_closed_partial` is not vacuous: with a running or closed pool the extraction does not fail. -/
theorem C101_closed_hypotheses_met (cpus n : Nat) (c d kf : Bool) : (poolStep cpus ⟨false, .pool n c⟩ (.extract d kf false)).2 = none ∧
    Spec.Running (poolStep cpus ⟨false, .pool n c⟩ (.irfs false false)).1 := by
  cases kf <;> cases d <;> simp [poolStep, refresh, createPool, useMapper, Spec.Running]

/-- **C101 (negation).** If the extraction fails the workers are left running. -/
theorem C101_closed_refuted (cpus n : Nat) (c d kf dbg : Bool) : Spec.Running (poolStep cpus ⟨dbg, .pool n c⟩ (.extract d kf true)).1 := by
  cases kf <;> cases d <;> cases dbg <;> simp [poolStep, refresh, createPool, useMapper, Spec.Running]

/-! ## C50, C77 -/

/-- The value that a setting has to have: the argument, else what is stored, else the default. -/
def Spec.pick {β : Type} (arg stored : Option β) (dflt : β) : β := (arg.or stored).getD dflt

/-- The filter that belongs to the settings. -/
def Spec.filterFor (linear : Lin) (N : Int) : FilterType :=
  match linear with
  | .bool true => .kalman
  | .bool false => .ensemble N
  | .str s => if s = "IF" then .inversion else if s = "" then .ensemble N else .kalman

/-- **C50 (resolution).** Argument, else stored value, else default; this is stored and used. -/
theorem C50_resolution (a : PrepArgs) (f : Settings) :
    (prep a f).1 = ⟨some (Spec.pick a.N f.filterN 300), some (Spec.pick a.linear f.linear (.bool false)), some (Spec.pick a.seed f.seed 0),
      some (Spec.pick a.transform f.transform false)⟩ ∧
    (prep a f).2.filter = Spec.filterFor (Spec.pick a.linear f.linear (.bool false)) (Spec.pick a.N f.filterN 300) ∧
    (prep a f).2.seed = Spec.pick a.seed f.seed 0 ∧ (prep a f).2.transform = Spec.pick a.transform f.transform false := by
  obtain ⟨N, lin, seed, tr, lm, km⟩ := a
  obtain ⟨fN, flin, fseed, ftr⟩ := f
  have hf : ∀ (l : Lin) (N : Int), (if (l.truthy && l != .str "IF") = true then FilterType.kalman
      else if l = .str "IF" then .inversion else .ensemble N) = Spec.filterFor l N := by
    intro l N
    cases l with
    | bool b => cases b <;> simp [Lin.truthy, Spec.filterFor]
    | str s =>
      simp only [Lin.truthy, Spec.filterFor]
      by_cases h1 : s = "IF"
      · simp [h1]
      · by_cases h2 : s = ""
        · simp [h2]
        · simp [h1, h2]
  unfold prep
  simp only [hf]
  cases N <;> cases lin <;> cases seed <;> cases tr <;> cases fN <;> cases flin <;> cases fseed <;> cases ftr <;> simp [Spec.pick]

/-- **C50 (bounds).** The bounds of the search are those of the arguments, except for an argument `linear` that asks for the Kalman filter. -/
theorem C50_bounds (a : PrepArgs) (f : Settings) :
    ((prep a f).2.lMax, (prep a f).2.kMax) =
      match a.linear.map (fun l => Spec.filterFor l 0) with
      | some .kalman => (1, 0)
      | _ => (a.lMax, a.kMax) := by
  obtain ⟨N, lin, seed, tr, lm, km⟩ := a
  unfold prep
  cases lin with
  | none => rfl
  | some l =>
    cases l with
    | bool b => cases b <;> simp [Lin.truthy, Spec.filterFor]
    | str s =>
      by_cases h1 : s = "IF"
      · simp [Lin.truthy, Spec.filterFor, h1]
      · by_cases h2 : s = ""
        · simp [Lin.truthy, Spec.filterFor, h2]
        · simp [Lin.truthy, Spec.filterFor, h1, h2]

/-- **C50.** After `prep_estim` with any arguments, any number of calls without arguments keeps the settings and the type of filter. -/
theorem C50_persist (a : PrepArgs) (f : Settings) (n : Nat) :
    let g := ((fun s => (prep PrepArgs.default s).1)^[n]) (prep a f).1
    g = (prep a f).1 ∧ (prep PrepArgs.default g).2.filter = (prep a f).2.filter ∧
      (prep PrepArgs.default g).2.seed = (prep a f).2.seed ∧ (prep PrepArgs.default g).2.transform = (prep a f).2.transform := by
  have h1 := C50_resolution a f
  have fix : (prep PrepArgs.default (prep a f).1).1 = (prep a f).1 := by
    rw [(C50_resolution PrepArgs.default (prep a f).1).1, h1.1]
    simp [PrepArgs.default, Spec.pick]
  have hg : ((fun s => (prep PrepArgs.default s).1)^[n]) (prep a f).1 = (prep a f).1 := Function.iterate_fixed fix n
  simp only [hg]
  have h2 := C50_resolution PrepArgs.default (prep a f).1
  refine ⟨trivial, ?_, ?_, ?_⟩
  · rw [h2.2.1, h1.2.1, h1.1]; simp [PrepArgs.default, Spec.pick]
  · rw [h2.2.2.1, h1.2.2.1, h1.1]; simp [PrepArgs.default, Spec.pick]
  · rw [h2.2.2.2, h1.2.2.2, h1.1]; simp [PrepArgs.default, Spec.pick]

example : (prep PrepArgs.default (prep ⟨some 50, some (.str "IF"), some 3, some true, 3, 16⟩ ⟨none, none, none, none⟩).1).2.filter = .inversion ∧
    (prep PrepArgs.default (prep ⟨some 50, some (.bool false), some 3, some true, 3, 16⟩ ⟨some 2, none, none, none⟩).1).2.filter =
      .ensemble 50 := by decide +kernel

/-- **C77 (partial).** If the arguments `linear` and `seed` are given again, everything is repeated. Missing: if they are not given. -/
theorem C77_repeat_partial (a : PrepArgs) (f : Settings) (l : Lin) (s : Int) (hl : a.linear = some l) (hs : a.seed = some s) :
    (prep ⟨none, some l, some s, none, a.lMax, a.kMax⟩ (prep a f).1).2 = (prep a f).2 := by
  obtain ⟨N, lin, seed, tr, lm, km⟩ := a
  simp only at hl hs
  subst hl hs
  obtain ⟨fN, flin, fseed, ftr⟩ := f
  cases N <;> cases tr <;> cases fN <;> cases ftr <;> rfl

/-- **C77 (negation).** After `prep_estim(linear=True, seed=1)`, `prep_estim()` solves the model with the occasionally binding constraint (bounds 3
and 16 instead of 1 and 0) and does not seed the generator. -/
theorem C77_repeat_refuted : ∃ (a : PrepArgs) (f : Settings), a.linear = some (.bool true) ∧ a.seed = some 1 ∧
    ((prep a f).2.lMax, (prep a f).2.kMax) = (1, 0) ∧ (prep a f).2.initialSeed = some 1 ∧
    ((prep PrepArgs.default (prep a f).1).2.lMax, (prep PrepArgs.default (prep a f).1).2.kMax) = (3, 16) ∧
    (prep PrepArgs.default (prep a f).1).2.initialSeed = none :=
  ⟨{ PrepArgs.default with linear := some (.bool true), seed := some 1 }, ⟨none, none, none, none⟩, by decide +kernel⟩

/-! ## C75: the mode as parameters -/

section
open Pydsge.Params Pydsge.Estim
variable {K PP VV HX LS TT QQ RS : Type} [Field K] [LinearOrder K]

/-- **C75 (partial).** The log probabilities of the chain are those of `lprob`. Without a prior transformation, `mode_x` is a
parameter vector whose posterior density is `mode_f`. Missing: models with `use_prior_transform`. -/
theorem C75_mode_density_partial (U : Setup K PP VV HX LS TT QQ RS) (w : World K PP VV HX LS TT QQ RS) (htr : U.transform = false)
    (α : Type) [LinearOrder α] (num : α → XNum K) (lp : List (List α)) (ch : List (List (List K)))
    (hlp : ∀ s k f x, Spec.draw lp s k = some f → Spec.draw ch s k = some x → (lprob U w x 1 none).2 = .ok (num f))
    (t : Nat) (f : α) (x : List K) (hb : Spec.BestDraw lp ch t f x) : (lprob U w x 1 (some false)).2 = .ok (num f) := by
  obtain ⟨⟨s, k, _, h1, h2⟩, _⟩ := hb
  rw [← hlp s k f x h1 h2]
  unfold lprob
  simp [htr]

/-- **C75 (partial).** With or without a prior transformation, the parameter vector that belongs to the stored mode (its image under `bptrans`, if
the transformation is used) has the density `mode_f`; so the stored vector itself has this density if the transformation leaves it as it is. -/
theorem C75_mode_transformed_partial (U : Setup K PP VV HX LS TT QQ RS) (w : World K PP VV HX LS TT QQ RS)
    (α : Type) [LinearOrder α] (num : α → XNum K) (lp : List (List α)) (ch : List (List (List K)))
    (hlp : ∀ s k f x, Spec.draw lp s k = some f → Spec.draw ch s k = some x → (lprob U w x 1 none).2 = .ok (num f))
    (t : Nat) (f : α) (x : List K) (hb : Spec.BestDraw lp ch t f x) :
    (U.transform = true → (lprob U w (U.bptrans x) 1 (some false)).2 = .ok (num f)) ∧
    (U.bptrans x = x → (lprob U w x 1 (some false)).2 = .ok (num f)) := by
  obtain ⟨⟨s, k, _, h1, h2⟩, _⟩ := hb
  rw [← hlp s k f x h1 h2]
  constructor
  · intro htr
    unfold lprob
    simp [htr]
  · intro hx
    unfold lprob
    cases U.transform <;> simp [hx]

end

/-- **C75 (negation).** With `use_prior_transform` the vector stored as mode is not the parameter vector of the best draw: as
parameters (which `set_par("mode")` takes it for) it has another density. -/
theorem C75_mode_density_refuted : ∃ (U : Estim.Setup ℚ (List ℚ) Unit Unit ℚ ℚ ℚ Nat) (w : Estim.World ℚ (List ℚ) Unit Unit ℚ ℚ ℚ Nat)
    (lp : List (List ℚ)) (ch : List (List (List ℚ))), U.transform = true ∧
    (∀ s k f x, Spec.draw lp s k = some f → Spec.draw ch s k = some x → (Estim.lprob U w x 1 none).2 = .ok (.fin f)) ∧
    ∃ f x, modeOf lp ch (some 1) = .ok (f, x) ∧ (Estim.lprob U w x 1 (some false)).2 ≠ .ok (.fin f) := by
  refine ⟨{ EstimEx.setup with transform := true }, EstimEx.w0, [[143/4]], [[[-1/2, 1]]], rfl, ?_, 143/4, [-1/2, 1], by decide +kernel,
    by decide +kernel⟩
  intro s k f x h1 h2
  rcases s with _ | s
  · rcases k with _ | k
    · simp [Spec.draw] at h1 h2
      subst h1 h2
      decide +kernel
    · simp [Spec.draw] at h1
  · simp [Spec.draw] at h1

/-! ## C76: starting values -/

section
open Pydsge.Params
variable {K PP VV HX LS TT QQ : Type} [Field K] [LinearOrder K]

/-- What `mcmc` asks for if `p0` is not given (mcmc.py:106-119): `nsample` is not an argument of `get_par`, it is collected in `**args` and
has no effect there. -/
def defaultStart (S : Solver K PP VV HX LS TT QQ) (D : Decl K) (dr : Draws K) (ob : Params.Obj K PP VV HX LS TT QQ) (tempered : Bool) :
    Except PyErr (ParVal K QQ) :=
  (getPar S D dr ⟨none, none, false⟩ ob (.str (if tempered then "prior_mean" else "best")) none false 1).2

theorem namedSet_vec (D : Decl K) (dr : Draws K) (ob : Params.Obj K PP VV HX LS TT QQ) (s : String) (n : Nat) (c : Cand K)
    (hs : s = "mode" ∨ s = "init" ∨ s = "prior_mean") (h : (namedSet D dr ob s n).2 = .ok c) : ∃ v, c = .vec v := by
  revert h
  unfold namedSet
  rcases hs with rfl | rfl | rfl
  · simp only [isMode, String.reduceEq, if_false, or_self, List.mem_cons, true_or, decide_true, if_true]
    cases ob.modeX <;> simp
    rintro rfl
    exact ⟨_, rfl⟩
  · have h1 : isMode "init" = false := by decide
    simp only [h1, String.reduceEq, if_false, or_self, if_true, Bool.false_eq_true]
    cases ob.initValue with
    | none => simp
    | some init =>
      cases ob.ndim with
      | none => simp
      | some k =>
        cases D.prior with
        | none => simp
        | some p =>
          simp only
          cases fancyGet D.parFix p.arg with
          | error e => simp
          | ok calib =>
            simp only [Except.ok.injEq]
            rintro rfl
            exact ⟨_, rfl⟩
  · have h1 : isMode "prior_mean" = false := by decide
    simp only [h1, String.reduceEq, if_false, or_self, if_true, Bool.false_eq_true]
    cases D.prior with
    | none => simp
    | some p =>
      simp only [Except.ok.injEq]
      rintro rfl
      exact ⟨_, rfl⟩

/-- **C76 (negation).** Whatever the model and the number of walkers asked for: if starting values are found at all, they are one single
parameter vector, not an array with a row for each walker. (A model with a parameter called `best` or `prior_mean` is left out.) -/
theorem C76_start_refuted (S : Solver K PP VV HX LS TT QQ) (D : Decl K) (dr : Draws K) (ob : Params.Obj K PP VV HX LS TT QQ) (tempered : Bool)
    (hn : ∀ s ∈ ["best", "prior_mean"], s ∉ D.names ∧ s ∉ D.pfNames) (r : ParVal K QQ)
    (h : defaultStart S D dr ob tempered = .ok r) : ∃ v, r = .cand (.vec v) := by
  revert h
  unfold defaultStart getPar
  have idx : ∀ (s : String) (l : List String), s ∉ l → l.idxOf? s = none := by
    intro s l h
    simpa [List.idxOf?_eq_none_iff] using h
  rcases hst : startPars S D ⟨none, none, false⟩ ob none with ⟨ob1, e | pars⟩
  · simp
  · cases tempered with
    | true =>
      obtain ⟨h1, h2⟩ := hn "prior_mean" (by simp)
      simp only [if_true, idx _ _ h1, idx _ _ h2, String.reduceEq, if_false]
      rcases hns : namedSet D dr ob1 "prior_mean" 1 with ⟨ob2, e | c⟩
      · simp
      · obtain ⟨v, rfl⟩ := namedSet_vec D dr ob1 "prior_mean" 1 c (by simp) (by rw [hns])
        simp only [candPar, gt_iff_lt, lt_irrefl, Except.ok.injEq, Bool.false_eq_true, if_false]
        rintro rfl
        exact ⟨v, rfl⟩
    | false =>
      obtain ⟨h1, h2⟩ := hn "best" (by simp)
      simp only [Bool.false_eq_true, if_false, idx _ _ h1, idx _ _ h2, String.reduceEq, if_true]
      have hb : ∀ c, (bestSet D dr ob1).2 = .ok c → ∃ v, c = .vec v := by
        intro c
        unfold bestSet
        rcases hns : namedSet D dr ob1 "mode" 1 with ⟨ob2, e | c'⟩
        · simp only
          intro h
          exact namedSet_vec D dr ob2 "init" 1 c (by simp) h
        · simp only [Except.ok.injEq]
          rintro rfl
          exact namedSet_vec D dr ob1 "mode" 1 c' (by simp) (by rw [hns])
      rcases hbs : bestSet D dr ob1 with ⟨ob2, e | c⟩
      · simp
      · obtain ⟨v, rfl⟩ := hb c (by rw [hbs])
        simp only [candPar, gt_iff_lt, lt_irrefl, if_false, Except.ok.injEq]
        rintro rfl
        exact ⟨v, rfl⟩

/-- **C76 (partial).** Given starting values are passed on, and their number of rows is the number of walkers. -/
theorem C76_given_partial {α B : Type} [LinearOrder α] (E : Env K α B) (a : Args K) (temp : K) (m : List (List K)) (h : a.p0 = some (.mat m))
    (hr : a.resume = false) : startValues E a temp = .ok (some (.mat m), some m.length) := by
  simp [startValues, h, hr]

/-- **C76 (partial), on the level of `mcmc`.** With given starting values, the outcome depends on the sampler only through its runs from exactly these values, and on
new backends only through those made for as many walkers as there are rows; the routine for default starting values plays no role. -/
theorem C76_given_run_partial {α B : Type} [LinearOrder α] (E E' : Env K α B) (s : St K α B) (a : Args K) (m : List (List K))
    (h : a.p0 = some (.mat m)) (hr : a.resume = false) (hcpu : E.cpus = E'.cpus) (hpath : E.path = E'.path)
    (hfresh : ∀ d, E.fresh m.length d = E'.fresh m.length d) (hrun : ∀ b f, E.run (some (.mat m)) b false f = E'.run (some (.mat m)) b false f) :
    mcmc E s a = mcmc E' s a := by
  have hb : ∀ s0 : St K α B, openBackend E a (some m.length) s0 = openBackend E' a (some m.length) s0 := by
    intro s0
    have hr' : ∀ (s1 : St K α B) pt, resetBackend E a (some m.length) s1 pt = resetBackend E' a (some m.length) s1 pt := by
      intro s1 pt
      simp only [resetBackend, Option.getD_some, hfresh]
    have hp' : ∀ s1 : St K α B, backendPath E a s1 = backendPath E' a s1 := by
      intro s1
      simp only [backendPath, hpath]
    unfold openBackend
    cases a.backend <;> simp only [hr', hp']
  unfold mcmc
  simp only [hcpu, C76_given_partial E a _ m h hr, C76_given_partial E' a _ m h hr, hb, hr, hrun]

end

/-- `C76_given_run_partial` on an example: the default starting values may fail. -/
example : mcmc McmcEx.env McmcEx.st { McmcEx.args with p0 := some (.mat [[1], [2]]) } =
    mcmc { McmcEx.env with start := fun _ => .error .exception } McmcEx.st { McmcEx.args with p0 := some (.mat [[1], [2]]) } :=
  C76_given_run_partial _ _ _ _ [[1], [2]] rfl rfl rfl rfl (fun _ => rfl) (fun _ _ => rfl)

/-- `C76_start_refuted` on a model with two estimated parameters whose mode is known. -/
example : ∃ v, (defaultStart EstimEx.sol EstimEx.dec ⟨fun _ => .ok [], fun _ => .ok [], .ok [], fun _ _ => []⟩
    ⟨⟨some [1, 0, 0], none, none, none, none, none, none, none, none⟩, some [3, 4], none, none⟩ false : Except PyErr (Params.ParVal ℚ ℚ)) =
      .ok (.cand (.vec v)) := ⟨[3, 4], by decide +kernel⟩

end Pydsge
