import Verif.Props.Cache
import Verif.Props.Engine
import Verif.Props.Sim
import Verif.Props.Mask
import Verif.Props.TrajArgs
import Verif.Props.PrepEstim
import Verif.Props.Extract

/-!
# C43, C64, C65, C69, C91, C111, C120, C128: when exactly

The partial theorems give conditions under which the claims hold. Here are the conditions under which they hold and no others.
-/

set_option autoImplicit false
set_option linter.unusedSectionVars false
set_option linter.unusedSimpArgs false

namespace Pydsge

/-! ## C43: cached functions -/

section C43
open Pydsge.Cache
variable {F A Y R : Type} [DecidableEq F] [DecidableEq Y]

/-- What a function does for one argument, it does for all arguments that hashing and `==` cannot tell apart, unless it raises. -/
def Spec.SameForSameKey (key : A → Option Y) (fn : F → A → Except PyErr R) : Prop :=
  ∀ f x x' r, key x ≠ none → key x = key x' → fn f x = .ok r → fn f x' = .ok r

/-- **C43, exactly.** Wrapped functions are transparent after every sequence of calls iff results for arguments with the same key are the same. -/
theorem C43_transparent_iff (key : A → Option Y) (fn : F → A → Except PyErr R) :
    (∀ l f x, key x ≠ none → (call key fn (calls key fn l) f x).2 = fn f x) ↔ Spec.SameForSameKey key fn := by
  constructor
  · intro h f x x' r hx hk hr
    obtain ⟨y, hy⟩ := Option.ne_none_iff_exists'.1 hx
    have h1 := h [(f, x)] f x' (hk ▸ hx)
    rw [← h1]
    simp only [calls, List.foldl_cons, List.foldl_nil, call, hy, hr, ← hk, List.find?_nil, List.find?_cons, decide_true]
  · intro h l f x hx
    unfold call
    cases hk : key x with
    | none => exact absurd hk hx
    | some y =>
      dsimp only
      cases hf : (calls key fn l).find? (fun e => decide (e.1 = (f, y))) with
      | none =>
        dsimp only
        cases fn f x <;> rfl
      | some e =>
        dsimp only
        have h1 := List.find?_some hf
        simp only [decide_eq_true_eq] at h1
        obtain ⟨x', hx', hr⟩ := calls_sound key fn l e (List.mem_of_find?_eq_some hf)
        rw [h1] at hx' hr
        exact (h f x' x _ (by rw [hx']; simp) (hx'.trans hk.symm) hr).symm

/-- C43: the condition holds for a function of the key, and fails for one that tells `1` from `True`. -/
theorem C43_iff_hypotheses_met :
    Spec.SameForSameKey (F := Unit) (fun x : Int => some (x % 2)) (fun _ x => .ok (x % 2 + 3)) ∧
    ¬ Spec.SameForSameKey (F := Unit) (fun x : Int => some (x % 2)) (fun _ x => .ok x) := by
  refine ⟨fun _ x x' r _ hk hr => ?_, fun h => ?_⟩
  · simp only [Option.some.injEq] at hk
    simp only at hr ⊢
    rw [← hr, hk]
  · have := h () 1 3 1 (by simp) (by decide) rfl
    cases this

end C43

/-! ## C64: the sentinel of the search -/

section C64
open Pydsge.Engine Pydsge.Spec
variable {K : Type} [Field K] [LinearOrder K] [IsStrictOrderedRing K]

/-- **C64, exactly.** If the constraint binds at some time and there is a consistent pair, then `find_lk` returns the least one with flag 0 iff it does not
wait 999 periods; and if it does, `find_lk` returns a pair without waiting and reports that there is none. -/
theorem C64_iff {rd : Reader K} {v : Fin 5 → Nat → Nat → K} {xbar : K} {L Kk l k : Nat} (hr : Reads rd v L Kk)
    (hL : 0 < L) (hK : 1 < Kk) (hn : ¬ NeverBinds v xbar L) (hlk : LeastConsistent v xbar L Kk l k) :
    (findLk rd xbar L Kk = .ok (l, k, 0) ↔ l ≠ 999) ∧
    (l = 999 → ∃ k' flag, findLk rd xbar L Kk = .ok (0, k', flag) ∧ flag ≠ 0) := by
  have bad : l = 999 → ∃ k' flag, findLk rd xbar L Kk = .ok (0, k', flag) ∧ flag ≠ 0 := by
    intro h9
    unfold findLk
    rcases slackLoop_spec (xbar := xbar) hr (by omega) 0 hL with ⟨h1, h2⟩ | ⟨⟨j, h1⟩, j', h2, h3⟩
    · exact absurd (fun j hj => h1 j (by omega) hj) hn
    · rw [h3]
      obtain ⟨k', f, a, b, c, d⟩ := approxLoop_spec (xbar := xbar) hr (by omega) 0 (by omega) false
      have hf : f ≠ 0 := by rcases d with ⟨d, _⟩ | ⟨d, _⟩ <;> omega
      simp only [h2, if_true, bruiteWrapper]
      obtain ⟨a1, a2, a3, a4⟩ := hlk
      rcases bruiteL_spec (xbar := xbar) hr 0 with ⟨g1, g2⟩ | ⟨l0, k0, g1, g2, g3, g4, g5, g6⟩
      · exact absurd a3 (g1 l k (by omega) a1 a2)
      · have e1 := a4 l0 k0 g2 g3 g4
        have e2 := g5 l k (by omega) a1 a2 a3
        have hl0 : l0 = 999 := by
          unfold LexLt at e1 e2
          simp only at e1 e2
          omega
        subst hl0
        rw [g6]
        simp only [if_true]
        rw [c]
        exact ⟨k', f, rfl, hf⟩
  refine ⟨⟨fun h h9 => ?_, fun h9 => ?_⟩, bad⟩
  · obtain ⟨k', flag, h1, h2⟩ := bad h9
    rw [h1] at h
    simp only [Except.ok.injEq, Prod.mk.injEq] at h
    exact h2 h.2.2
  · exact (C64_other_rows_partial hr hL hK).2 hn l k hlk h9

end C64

/-! ## C65: the arguments of `k_map` -/

section C65
open Matrix Pydsge.Engine Pydsge.Spec Pydsge.Tools Pydsge.GenSys
variable {E ν ε o K : Type} [Fintype E] [Fintype ν] [Fintype ε] [Fintype o]
  [DecidableEq E] [DecidableEq ν] [DecidableEq ε] [Field K] [LinearOrder K] [IsStrictOrderedRing K]
variable {H z p : Type} [DecidableEq H] [Fintype H] [Fintype z] [Fintype p] [DecidableEq z] [DecidableEq p]
variable {tol : K} {m : Input E ν ε o K} [DecidablePred (inall tol m)] {lay : Layout tol m H z p}
  {orc : Oracle (Rows E H ε) (z ⊕ ε) p K} {lMax kMax : Nat} {sched : Nat → List Nat} {mod : Model z ε p o K}

/-- **C65, exactly.** For a state at which `t_func` finds the pair `(r.l, r.k)`, `k_map` with arguments `l` and `k` looks at the pair with the given numbers, the
ones that are missing taken from `(r.l, r.k)`, iff not (`l` alone is given, it is 0, and `r.l` is not) and not (`k` alone is given and `r.l` is not 0). -/
theorem C65_pair_iff (h : Succeeded lay orc lMax kMax sched mod) (hk : 0 < kMax) (st : p ⊕ z → K) (e : ε → K) (r : Step z p K)
    (hr : tFunc mod st e .none false = .ok r) (lArg kArg : Option Nat) :
    kMapLK mod (q0Of st e) lArg kArg = .ok (lArg.getD r.l, kArg.getD r.k) ↔
      r.l = 0 ∨ ¬ (lArg = some 0 ∧ kArg = none) ∧ ¬ (lArg = none ∧ kArg ≠ none) := by
  have hf := find_of_step h hk st e r hr
  cases kArg with
  | some k =>
    cases lArg with
    | some l => simp [kMapLK]
    | none => simp [kMapLK, eq_comm]
  | none =>
    cases lArg with
    | none => simp [kMapLK, hf]
    | some l =>
      by_cases hl : l = 0
      · simp [kMapLK, hf, hl]
      · simp [kMapLK, hf, hl]

end C65

/-! ## C69: the arguments of `simulate` -/

section C69
open Pydsge.Tools

/-- **C69, exactly.** `simulate` runs iff there is a source with parameters, and shocks and initial states are in the source or given; without a source it raises
`TypeError`, else `KeyError`. The given arguments replace the entries of the source. -/
theorem C69_outcome {P R I α : Type} (source : Option (SimSource P R I)) (pars : Option P) (resid : Option R) (init : Option I)
    (runs : P → R → I → Except PyErr α) :
    (source = none → simulateTop source pars resid init runs = .error .typeError) ∧
    (∀ s, source = some s → s.pars = none ∨ (resid <|> s.resid) = none ∨ (init <|> s.init) = none →
      simulateTop source pars resid init runs = .error .keyError) ∧
    ∀ s p r i q, source = some s → s.pars = some q → (pars <|> s.pars) = some p → (resid <|> s.resid) = some r → (init <|> s.init) = some i →
      simulateTop source pars resid init runs = runs p r i := by
  refine ⟨?_, ?_, ?_⟩
  · rintro rfl
    cases pars <;> cases resid <;> cases init <;> rfl
  · rintro s rfl h
    rcases s with ⟨sp, sr, si⟩
    cases pars <;> cases resid <;> cases init <;> cases sp <;> cases sr <;> cases si <;> simp_all [simulateTop, argOr]
  · rintro s p r i q rfl h1 h2 h3 h4
    rcases s with ⟨sp, sr, si⟩
    cases pars <;> cases resid <;> cases init <;> cases sp <;> cases sr <;> cases si <;> simp_all [simulateTop, argOr]

end C69

/-! ## C111: masks by label -/

section C111
open Pydsge.Tools Pydsge.Mask
variable {K : Type} [Field K] [LinearOrder K]

/-- Whatever is assigned to columns of the mask by label, the mask acts on exactly the labelled shocks. -/
def Spec.MaskByLabel (K : Type) [Field K] [LinearOrder K] (obs shocks : List String) (rows : Nat) : Prop :=
  ∀ (as : List (String × (Nat → Option K))) (op : K → K → K) (eps : Arr K), (∀ a ∈ as, a.1 ∈ shocks) → eps.rows = rows - 1 →
    eps.cols = shocks.length →
    ∃ res, applyFrame op (as.foldl (fun f a => setCol f a.1 a.2) (mask obs shocks obs rows)) eps = .ok res ∧
      res.rows = eps.rows ∧ res.cols = eps.cols ∧ ∀ i j name, i < eps.rows → shocks[j]? = some name →
        res.val i j = applyMask op (Spec.assigned as name i) (eps.val i j)

/-- **C111, exactly.** For a model with shocks and at least two rows of data, masks act by label iff there are as many observables as shocks. -/
theorem C111_mask_by_label_iff {obs shocks : List String} (hn : obs.Nodup) (hs : shocks.Nodup) (h0 : shocks ≠ []) (rows : Nat) (hr : 2 ≤ rows) :
    Spec.MaskByLabel K obs shocks rows ↔ obs.length = shocks.length := by
  constructor
  · intro h
    by_contra hl
    have hpos : 0 < shocks.length := List.length_pos_iff.2 h0
    obtain ⟨res, h1, -, h3, -⟩ := h [] (fun _ _ => 0) ⟨rows - 1, shocks.length, fun _ _ => 1⟩ (by simp) rfl rfl
    simp only [List.foldl_nil, applyFrame, mask, bcast, if_true, List.length_map, if_neg hl] at h1
    by_cases ho : obs.length = 1
    · obtain ⟨a, b, rest, rfl⟩ : ∃ a b rest, shocks = a :: b :: rest := by
        match shocks, hpos, hl with
        | [a], _, hl => exact absurd (by simpa using ho) hl
        | a :: b :: rest, _, _ => exact ⟨a, b, rest, rfl⟩
      obtain ⟨o, rfl⟩ := List.length_eq_one_iff.1 ho
      have hab : b ≠ a := by
        intro h
        rw [h] at hs
        simp at hs
      have hz : zipDict [o] (a :: b :: rest) o = some a := by simp [zipDict]
      obtain ⟨res, h1, -, h3, h4⟩ := h [(a, fun _ => some 0)] (fun _ _ => 0) ⟨rows - 1, (a :: b :: rest).length, fun _ _ => 1⟩ (by simp) rfl rfl
      have h5 := h4 0 1 b (by simp only; omega) rfl
      simp only [List.foldl_cons, List.foldl_nil, setCol, mask, List.map_cons, List.map_nil, hz, Option.getD_some, List.mem_singleton, if_true] at h1
      simp only [applyFrame, bcast, if_true, List.length_cons, List.length_nil] at h1
      rw [if_neg (by omega)] at h1
      simp only [Except.ok.injEq] at h1
      subst h1
      simp [bidx, applyMask, Spec.assigned, hab.symm] at h5
    · rw [if_neg ho] at h1
      by_cases hsl : shocks.length = 1
      · rw [if_pos hsl] at h1
        simp only [Except.ok.injEq] at h1
        subst h1
        exact hl h3
      · rw [if_neg hsl] at h1
        cases h1
  · intro hl as op eps ha h1 h2
    exact C111_mask_by_label_partial hn hs hl rows as ha op eps h1 h2

/-- C111: the hypotheses of the exact condition are met, and both sides occur. -/
theorem C111_iff_hypotheses_met : Spec.MaskByLabel Rat ["y", "pi"] ["e_a", "e_b"] 3 ∧ ¬ Spec.MaskByLabel Rat ["y"] ["e_a", "e_b"] 3 :=
  ⟨(C111_mask_by_label_iff (by decide) (by decide) (by decide) 3 (by omega)).2 rfl,
    fun h => absurd ((C111_mask_by_label_iff (by decide) (by decide) (by decide) 3 (by omega)).1 h) (by decide)⟩

end C111

/-! ## C91: `obs` with parameters -/

section C91
open Pydsge.Params
variable {K PP VV HX LS TT QQ : Type} [Field K] [LinearOrder K] {S : Solver K PP VV HX LS TT QQ} {D : Decl K} {dr : Draws K} {sq : QQ → QQ}
  {ob : Obj K PP VV HX LS TT QQ}

/-- **C91, exactly.** After `obs(states, pars=pars)` the current parameters are the ones from before iff these are the last of the given ones. -/
theorem C91_parameters_kept_iff {X Y : Type} (h : WF D) (app : HX → X → Except PyErr Y) (args : List (X × List K)) (a : X × List K)
    (hlen : ∀ b ∈ args ++ [a], b.2.length = D.names.length) {ob' : Obj K PP VV HX LS TT QQ} {ys : List Y}
    (ho : obsPars S D dr sq app ob (args ++ [a]) = (ob', .ok ys)) : ob'.a.par = ob.a.par ↔ ob.a.par = some a.2 := by
  have := (C91_obs_leaves_model_partial h app (args ++ [a]) hlen ho).2.2.2.1 a (by simp)
  rw [this, eq_comm]

end C91

/-! ## C120: `extract` with `map` -/

section C120
open Pydsge.Params Pydsge.Extract
variable {K PP VV HX LS TT QQ Seed R : Type} [Field K] [LinearOrder K] {S : Solver K PP VV HX LS TT QQ} {D : Decl K} {dr : Draws K}
  {g : GenArgs} {sq : QQ → QQ} {run : Attrs K PP VV HX LS TT QQ → Seed → Except PyErr (Option R)}

/-- **C120, exactly, without a pool.** `extract` for a list of vectors leaves the current parameters iff they are the last of the list. -/
theorem C120_parameters_kept_iff (h : WF D) (rng : Nat → List Seed) (self : Obj K PP VV HX LS TT QQ) (vs : List (List K)) (v : List K)
    (hv : v.length = D.names.length) (n : Nat) (hs : rng n ≠ [])
    {out : List (List K × R)} (hok : (extract S D dr g sq run rng false none self (.many (vs ++ [v])) n).2 = .ok out) :
    (extract S D dr g sq run rng false none self (.many (vs ++ [v])) n).1.a.par = self.a.par ↔ self.a.par = some v := by
  obtain ⟨ss, s, e⟩ : ∃ ss s, rng n = ss ++ [s] := ⟨_, _, (List.dropLast_concat_getLast hs).symm⟩
  rw [C120_last_sample_stays h rng self vs v hv n s ss e hok, eq_comm]

end C120

/-! ## C128: what the samplers need -/

section C128
open Pydsge.Params Pydsge.Estim Pydsge.Mcmc Pydsge.PrepEstim
variable {K PP VV HX LS TT QQ RS RR CC : Type} [Field K] [LinearOrder K]

/-- **C128, exactly.** `mcmc` and `prior_sampler(check_likelihood=True)` find the likelihood iff the model has the attributes `ndim` and the likelihood, or it has no
attribute `ndim` and `prep_estim(load_R=True)` runs through. -/
theorem C128_iff (B : Base K PP VV HX LS TT QQ RS RR CC) (s : Est K PP VV HX LS TT QQ RS RR CC) :
    (ensure B s).2 = none ↔ s.ob.ndim ≠ none ∧ s.fns ≠ none ∨
      s.ob.ndim = none ∧ (prepEstim B s { Args.default with loadR := true }).2 = none := by
  cases hn : s.ob.ndim with
  | some d =>
    unfold ensure
    simp only [hn, andThen]
    cases s.fns <;> simp
  | none =>
    rcases hp : prepEstim B s { Args.default with loadR := true } with ⟨s', _ | e⟩
    · rw [(C128_prepared_partial B s).2.1 s' hn hp]; simp
    · rw [(C128_prepared_partial B s).2.2 s' e hn hp]; simp

end C128

end Pydsge
