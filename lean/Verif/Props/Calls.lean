import Verif.Model.Calls
import Verif.Model.Names
import Verif.Props.ParSets
import Mathlib.Tactic.FinCases

/-!
# C96: the order of variables; C97: parameters and settings of `irfs`
-/

set_option autoImplicit false
set_option linter.unusedSectionVars false
set_option linter.unusedSimpArgs false

namespace Pydsge

open Pydsge.Params Pydsge.Calls

variable {K PP HX LS TT QQ : Type}

/-! ## C96 -/

section Order
open Pydsge.GenSys

variable {E ν ε o H : Type} [Fintype E] [Fintype ν] [Fintype ε] [Fintype o] [Fintype H] [DecidableEq E] [DecidableEq ν] [DecidableEq ε] [DecidableEq H]
  [Field K] [LinearOrder K]

/-- Two parametrisations of a model with the same pattern of zeros. -/
structure Spec.SamePattern (tol : K) (m m' : Input E ν ε o K) : Prop where
  AA : ∀ v, fast0Col tol m.AA0 v ↔ fast0Col tol m'.AA0 v
  BB : ∀ v, fast0Col tol m.BB0 v ↔ fast0Col tol m'.BB0 v
  CC : ∀ v, fast0Col tol m.CC0 v ↔ fast0Col tol m'.CC0 v
  fc : ∀ v, fast0 tol (fcN m v) ↔ fast0 tol (fcN m' v)

theorem fast0_neg (tol x : K) [IsStrictOrderedRing K] : fast0 tol (-x) ↔ fast0 tol x := by
  unfold fast0
  rw [abs_neg]

theorem fast0_fcY [IsStrictOrderedRing K] (tol : K) (m : Input E ν ε o K) (v : ν) :
    fast0 tol (fcY (H := H) m (.inl (.inl v))) ↔ fast0 tol (fcN m v) := by
  simp only [fcY]
  cases m.fd0 with
  | none => rfl
  | some f => exact fast0_neg tol _

theorem fast0Col_CC1_var [IsStrictOrderedRing K] (tol : K) (htol : 0 < tol) (m : Input E ν ε o K) [DecidablePred (inall tol m)] (hyb : H → ν) (v : ν) :
    fast0Col tol (CC1 (H := H) tol m hyb) (.inl (.inl v)) ↔ inall tol m v ∨ fast0Col tol m.CC0 v := by
  constructor
  · intro h
    by_cases hi : inall tol m v
    · exact Or.inl hi
    · refine Or.inr fun e => ?_
      have := h (.inl (.inl e))
      simpa [CC1, hi] using this
  · intro h r
    rcases r with (e | h') | e'
    · by_cases hi : inall tol m v
      · simp [CC1, hi, htol]
      · rcases h with h | h
        · exact absurd h hi
        · simpa [CC1, hi] using h e
    · simpa [CC1] using htol
    · simpa [CC1] using htol

theorem fast0Col_CC1_lag [IsStrictOrderedRing K] (tol : K) (htol : 0 < tol) (m : Input E ν ε o K) [DecidablePred (inall tol m)] (hyb : H → ν) (w : H) :
    fast0Col tol (CC1 (H := H) tol m hyb) (.inl (.inr w)) ↔ fast0Col tol m.CC0 (hyb w) := by
  constructor
  · intro h e
    simpa [CC1] using h (.inl (.inl e))
  · intro h r
    rcases r with (e | h') | e'
    · simpa [CC1] using h e
    · simpa [CC1] using htol
    · simpa [CC1] using htol

theorem fast0Col_AA1_var [IsStrictOrderedRing K] (tol : K) (htol : 0 < tol) (m : Input E ν ε o K) (v : ν) :
    fast0Col tol (AA1 (H := H) m) (.inl (.inl v)) ↔ fast0Col tol m.AA0 v := by
  constructor
  · intro h e
    simpa [AA1] using h (.inl (.inl e))
  · intro h r
    rcases r with (e | h') | e'
    · simpa [AA1] using h e
    · simpa [AA1] using htol
    · simpa [AA1] using htol

theorem fast0Col_AA1_lag [IsStrictOrderedRing K] (tol : K) (htol : 0 < tol) (m : Input E ν ε o K) (w : H) :
    fast0Col tol (AA1 (H := H) m) (.inl (.inr w)) ↔ True := by
  simp only [iff_true]
  intro r
  rcases r with (e | h') | e' <;> simpa [AA1] using htol

theorem fast0Col_BB1_var [IsStrictOrderedRing K] (tol : K) (htol : 0 < tol) (m : Input E ν ε o K) (hyb : H → ν) (v : ν) :
    fast0Col tol (BB1 (H := H) m hyb) (.inl (.inl v)) ↔ fast0Col tol m.BB0 v ∧ ((∃ w, hyb w = v) → 1 < tol) := by
  constructor
  · intro h
    refine ⟨fun e => by simpa [BB1] using h (.inl (.inl e)), ?_⟩
    rintro ⟨w, rfl⟩
    simpa [BB1] using h (.inl (.inr w))
  · rintro ⟨h, h'⟩ r
    rcases r with (e | w) | e'
    · simpa [BB1] using h e
    · by_cases hw : hyb w = v
      · simpa [BB1, hw] using h' ⟨w, hw⟩
      · simpa [BB1, hw] using htol
    · simpa [BB1] using htol

/-- Whether the auxiliary variable enters the padded `BB0` does not depend on the numbers. -/
theorem fast0Col_BB1_lag [IsStrictOrderedRing K] (tol : K) (m m' : Input E ν ε o K) (hyb : H → ν) (w : H) :
    fast0Col tol (BB1 (H := H) m hyb) (.inl (.inr w)) ↔ fast0Col tol (BB1 (H := H) m' hyb) (.inl (.inr w)) := by
  unfold fast0Col
  refine forall_congr' fun r => ?_
  rcases r with (e | w') | e' <;> simp [BB1]

/-- **C96 (partial).** Parametrisations with the same pattern of zeros have the same order of variables. So the columns of `irfs` and the initial states of
`simulate` are right for these.

Missing: other patterns (`C96_order_refuted`). -/
theorem C96_order_partial [IsStrictOrderedRing K] (tol : K) (htol : 0 < tol) (m m' : Input E ν ε o K) [DecidablePred (inall tol m)]
    [DecidablePred (inall tol m')] (hs : Spec.SamePattern tol m m') (hyb : H → ν) (vv0 : List (ν ⊕ H)) :
    vv tol m hyb vv0 = vv tol m' hyb vv0 := by
  have hall : ∀ v, inall tol m v ↔ inall tol m' v := fun v => by
    unfold inall
    rw [hs.AA, hs.CC]
  have hq : ∀ w : ν ⊕ H, inq tol m hyb (.inl w) ↔ inq tol m' hyb (.inl w) := by
    intro w
    unfold inq
    rcases w with v | w
    · rw [fast0Col_CC1_var tol htol, fast0Col_CC1_var tol htol, fast0_fcY, fast0_fcY, hall, hs.CC, hs.fc]
    · rw [fast0Col_CC1_lag tol htol, fast0Col_CC1_lag tol htol, hs.CC]
      simp [fcY]
  have hp : ∀ w : ν ⊕ H, inp tol m hyb (.inl w) ↔ inp tol m' hyb (.inl w) := by
    intro w
    unfold inp
    rw [hq]
    rcases w with v | w
    · rw [fast0Col_AA1_var tol htol, fast0Col_AA1_var tol htol, fast0Col_BB1_var tol htol, fast0Col_BB1_var tol htol, hs.AA, hs.BB]
    · rw [fast0Col_AA1_lag tol htol, fast0Col_AA1_lag tol htol, fast0Col_BB1_lag tol m m']
  unfold vv cvv svv
  rw [List.filter_congr fun w _ => decide_eq_decide.2 (hp w), List.filter_congr fun w _ => decide_eq_decide.2 (hq w)]

end Order

section Guard
variable [Field K] [LinearOrder K] (S : Solver K PP (List String) HX LS TT QQ) (D : Decl K) (dr : Draws K) (g : GenArgs) (sq : QQ → QQ)

/-- The check of `simulate` compares `vv` with itself: the only exceptions are those of `set_par`. -/
theorem simGuard_vacuous (pelf : Ob K PP HX LS TT QQ) (par : List K) (e : PyErr) :
    (simGuard S D dr g sq pelf par).2 = .error e ↔ (setPar S D dr g sq pelf (.vec par) none).2 = .error e := by
  unfold simGuard setParVV
  rcases setPar S D dr g sq pelf (.vec par) none with ⟨o, r⟩
  cases r with
  | error e' => simp
  | ok v => simp

end Guard

/-- A model with variables `x`, `y` and the shock `e`: `x = a x(-1) + b y(-1) + y/4 + e`, and `y = max(x, -1)`. -/
def OrderEx.inp (a b : Rat) : GenSys.Input (Fin 1) (Fin 2) (Fin 1) (Fin 1) Rat :=
  GenSys.Input.ofYaml (A := 0) (B := !![1, -1/4]) (C := !![-a, -b]) (D := !![-1]) (cvar := 1) (rb := ![1, 0]) (rc := 0) (rd := 0) (xbar := -1)
    (ZZ0 := !![1, 0]) (ZZ1 := 0)

/-- An abstract solver that has these orders: `y, x` if the first parameter is not zero, else `x, y`. -/
def OrderEx.solver : Solver Rat (List Rat) (List String) Rat Rat Rat Rat where
  pcompile := fun v => .ok v
  constVar := true
  xbar := fun _ => .ok (-1)
  vv0 := ["x", "y"]
  mats := fun _ => .ok ()
  masks := fun pp => .ok (if (pp[0]?).getD 0 = 0 then ["x", "y"] else ["y", "x"], 0)
  linear := fun pp _ => .ok pp.sum
  tables := fun pp _ _ => .ok pp.sum
  cov := fun pp => pp.sum

def OrderEx.decl : Decl Rat := ⟨["a", "b"], [1/2, 0], [], fun _ => [], none⟩

def OrderEx.fresh : Ob Rat (List Rat) Rat Rat Rat Rat := ⟨⟨none, none, none, none, none, none, none, none, none⟩, none, none, none⟩

/-- The object after `set_par([1/2, 0])`. -/
def OrderEx.solved : Ob Rat (List Rat) Rat Rat Rat Rat :=
  (setPar OrderEx.solver OrderEx.decl ParEx.draws ⟨none, none, false⟩ id OrderEx.fresh (.vec [1/2, 0]) none).1

theorem OrderEx.inq_iff (a b : Rat) (v : Fin 2) [DecidablePred (GenSys.inall (1/1000) (OrderEx.inp a b))] :
    GenSys.inq (1/1000) (OrderEx.inp a b) Empty.elim (.inl (.inl v)) ↔ 1/1000 ≤ |![a, b] v| := by
  have hA : ¬ GenSys.inall (1/1000) (OrderEx.inp a b) v := by
    rintro ⟨h, _⟩
    exact h fun i => by simp [OrderEx.inp, GenSys.Input.ofYaml]
  unfold GenSys.inq
  rw [fast0Col_CC1_var _ (by norm_num), fast0_fcY]
  have hfc : GenSys.fast0 (1/1000) (GenSys.fcN (OrderEx.inp a b) v) := by
    simp [GenSys.fast0, GenSys.fcN, OrderEx.inp, GenSys.Input.ofYaml]
  simp only [hA, hfc, false_or, not_true_eq_false, or_false]
  unfold GenSys.fast0Col
  rw [not_forall]
  simp only [not_lt]
  constructor
  · rintro ⟨i, hi⟩
    fin_cases i
    fin_cases v <;> simpa [OrderEx.inp, GenSys.Input.ofYaml] using hi
  · intro h
    refine ⟨0, ?_⟩
    fin_cases v <;> simpa [OrderEx.inp, GenSys.Input.ofYaml] using h

theorem OrderEx.inp_iff (a b : Rat) (v : Fin 2) [DecidablePred (GenSys.inall (1/1000) (OrderEx.inp a b))] :
    GenSys.inp (1/1000) (OrderEx.inp a b) Empty.elim (.inl (.inl v)) ↔ ¬ 1/1000 ≤ |![a, b] v| := by
  unfold GenSys.inp
  rw [OrderEx.inq_iff, and_iff_right]
  right
  intro h
  have h0 := h (.inl (.inl 0))
  fin_cases v <;> simp [GenSys.BB1, OrderEx.inp, GenSys.Input.ofYaml] at h0 <;> norm_num [abs_of_neg, abs_of_pos] at h0

/-- **C96 (refuted).** In the example, `gen_sys` orders the variables as `y, x` for `(a, b) = (1/2, 0)` and as `x, y` for `(0, 1/2)`. The check in `simulate` can never
fail (it compares `pelf.vv` with itself), so states of one order are taken as states of the other; and `irfs` puts the label of `y` on the values of `x`. -/
theorem C96_order_refuted [DecidablePred (GenSys.inall (1/1000) (OrderEx.inp (1/2) 0))] [DecidablePred (GenSys.inall (1/1000) (OrderEx.inp 0 (1/2)))] :
    GenSys.vv (H := Empty) (1/1000) (OrderEx.inp (1/2) 0) Empty.elim [.inl 0, .inl 1] = [.inl 1, .inl 0] ∧
    GenSys.vv (H := Empty) (1/1000) (OrderEx.inp 0 (1/2)) Empty.elim [.inl 0, .inl 1] = [.inl 0, .inl 1] ∧
    OrderEx.solved.a.vv = some ["y", "x"] ∧
    (simGuard OrderEx.solver OrderEx.decl ParEx.draws ⟨none, none, false⟩ id OrderEx.solved [0, 1/2]).2 = .ok () ∧
    (simGuard OrderEx.solver OrderEx.decl ParEx.draws ⟨none, none, false⟩ id OrderEx.solved [0, 1/2]).1.a.vv = some ["x", "y"] ∧
    ((irfsPrepare OrderEx.solver OrderEx.decl ParEx.draws ⟨none, none, false⟩ id OrderEx.solved (some [0, 1/2])).map fun r =>
      (r.self.a.vv, r.pelf.bind (·.a.vv))) = .ok (some ["y", "x"], some ["x", "y"]) ∧
    (∀ x y : Rat, frameRow ["y", "x"] [x, y] = .ok [("y", x), ("x", y)]) := by
  refine ⟨?_, ?_, by decide +kernel, by decide +kernel, by decide +kernel, by decide +kernel, fun x y => rfl⟩
  · unfold GenSys.vv GenSys.cvv GenSys.svv
    simp only [OrderEx.inq_iff, OrderEx.inp_iff, List.filter_cons, List.filter_nil]
    norm_num [abs_of_pos]
  · unfold GenSys.vv GenSys.cvv GenSys.svv
    simp only [OrderEx.inq_iff, OrderEx.inp_iff, List.filter_cons, List.filter_nil]
    norm_num [abs_of_pos]

/-- The hypotheses of the partial theorem are met by two different parametrisations. -/
theorem C96_hypotheses_met : Spec.SamePattern (1/1000) (OrderEx.inp (1/2) 0) (OrderEx.inp (1/3) 0) := by
  have key : ∀ (x : Rat), x = 1/2 ∨ x = 1/3 → ∀ v, (GenSys.fast0Col (1/1000) (OrderEx.inp x 0).CC0 v ↔ v = 1) := by
    intro x hx v
    constructor
    · intro h
      have h0 := h 0
      fin_cases v
      · rcases hx with rfl | rfl <;> norm_num [OrderEx.inp, GenSys.Input.ofYaml, abs_of_pos] at h0
      · rfl
    · rintro rfl i
      simp [OrderEx.inp, GenSys.Input.ofYaml]
  refine ⟨fun v => Iff.rfl, fun v => Iff.rfl, fun v => ?_, fun v => Iff.rfl⟩
  rw [key _ (Or.inl rfl), key _ (Or.inr rfl)]

/-! ## C97 -/

section Prepare
variable [Field K] [LinearOrder K] {S : Solver K PP (List String) HX LS TT QQ} {D : Decl K} {dr : Draws K} {g : GenArgs} {sq : QQ → QQ}

/-- **C97 (partial).** `irfs` for a vector of parameters that are not all zero, with any bounds `l_max`, `k_max`, of a model that has been solved before: what is simulated is solved
for these parameters and these bounds; the model itself is left alone. Without parameters and bounds, the current model is simulated.

Missing: all parameters zero; bounds without parameters; the bounds that `set_k` is compared with (`C97_irfs_settings_refuted`). -/
theorem C97_irfs_settings_partial (h : WF D) (self : Ob K PP HX LS TT QQ) (v₀ : List K) (hv₀ : self.a.par = some v₀) (hx : g.hxOnly = false)
    (v : List K) (hv : v.length = D.names.length) (hne : ∃ x ∈ v, x ≠ 0) (r : Prepared K PP HX LS TT QQ)
    (hr : irfsPrepare S D dr g sq self (some v) = .ok r) :
    r.self = self ∧
    ∀ pelf, r.pelf = some pelf → pelf.a.par = some v ∧ Spec.InSync S D sq pelf.a ∧
      ∃ lks, GenSys.newLks g.lMax g.kMax self.a.lks = .ok lks ∧ pelf.a.lks = some lks := by
  unfold irfsPrepare at hr
  simp only [hv₀] at hr
  cases hl : self.a.lks with
  | none => simp [hl] at hr
  | some lks =>
    simp only [hl] at hr
    rw [if_pos (by rw [List.any_eq_true]; obtain ⟨x, hx1, hx2⟩ := hne; exact ⟨x, hx1, by simpa using hx2⟩)] at hr
    have hset : setPar S D dr g sq self (.vec v) none = finishSet S D dr g sq self v := by
      unfold setPar
      simp only
      rw [if_pos (by rw [h.len]; exact hv)]
    rw [hset] at hr
    rcases hf : finishSet S D dr g sq self v with ⟨ob', res⟩
    rw [hf] at hr
    cases res with
    | error e => cases e <;> simp at hr <;> subst hr <;> simp
    | ok val =>
      simp only [Except.ok.injEq] at hr
      subst hr
      refine ⟨rfl, ?_⟩
      intro pelf hp
      simp only [Option.some.injEq] at hp
      subst hp
      have hsync := finishSet_sync h hv hx hf
      obtain ⟨hg, _, h2⟩ := finishSet_inv h sq hv hf
      refine ⟨h2, hsync, ?_⟩
      have hlks : ∃ lks', GenSys.newLks g.lMax g.kMax self.a.lks = .ok lks' ∧ (genSysYaml S D g self.a (some v)).1.lks = some lks' := by
        obtain ⟨pp, xb, lks', vv, hx', ls, t, ha, h1, h3, h4, h5, h6, h7⟩ := genSysYaml_sync self.a v hx hg
        refine ⟨lks', ?_, by rw [ha]⟩
        unfold genSysYaml at ha hg
        simp only [h1, h3] at ha hg
        cases hc : S.constVar with
        | false => simp [hc] at hg
        | true =>
          simp only [hc, Bool.not_true, Bool.false_eq_true, if_false, not_lt.2 h4] at ha hg
          cases hm : S.mats pp with
          | error e => simp [hm] at hg
          | ok _ =>
            simp only [hm] at ha hg
            cases hk : GenSys.newLks g.lMax g.kMax self.a.lks with
            | error e => simp [hk] at hg
            | ok l =>
              simp only [hk, h5, hx, h6, Bool.false_eq_true, if_false] at ha hg
              cases ht : S.tables pp xb l with
              | error e => simp [ht] at hg
              | ok t' =>
                simp only [ht, Attrs.mk.injEq, Option.some.injEq] at ha
                rw [ha.2.2.2.2.1]
      obtain ⟨lks', hk1, hk2⟩ := hlks
      refine ⟨lks', by rw [← hl]; exact hk1, ?_⟩
      unfold finishSet at hf
      rcases hgen : genSysYaml S D g self.a (some v) with ⟨a, e⟩
      rw [hgen] at hg hk2
      simp only at hg hk2
      subst hg
      have hpar : a.par = some v := by
        have := genSysYaml_par (S := S) (D := D) (g := g) self.a v
        rw [hgen] at this
        exact this
      simp only [hgen] at hf
      cases hq : a.filterQ with
      | none =>
        simp only [hq] at hf
        rw [getPar_none h (v := v) hpar hv 1, Prod.mk.injEq] at hf
        rw [← hf.1]
        exact hk2
      | some q =>
        cases hpp : a.ppar with
        | none =>
          simp only [hq, hpp] at hf
          rw [getPar_none h (v := v) hpar hv 1, Prod.mk.injEq] at hf
          rw [← hf.1]
          exact hk2
        | some pp =>
          simp only [hq, hpp] at hf
          rw [getPar_none h (v := v) hpar hv 1, Prod.mk.injEq] at hf
          rw [← hf.1]
          exact hk2

/-- A vector of zeros is ignored: the current model is simulated. And bounds are ignored if no parameters are given. -/
theorem irfsPrepare_ignored (self : Ob K PP HX LS TT QQ) (v₀ : List K) (hv₀ : self.a.par = some v₀) (lks : Int × Int) (hl : self.a.lks = some lks)
    (pars : Option (List K)) (hp : ∀ v, pars = some v → ∀ x ∈ v, x = 0) :
    irfsPrepare S D dr g sq self pars = .ok ⟨self, lks, some self⟩ := by
  unfold irfsPrepare
  simp only [hv₀, hl]
  cases pars with
  | none => rfl
  | some v =>
    simp only
    rw [if_neg (by
      rw [List.any_eq_true]
      rintro ⟨x, hx, hx'⟩
      have := hp v rfl x hx
      simp [this] at hx')]

end Prepare

section Spell
open Pydsge.Tools Pydsge.GenSys Pydsge.Engine
variable {z ε p o : Type} [Fintype z] [Fintype ε] [Fintype p] [Fintype o] [DecidableEq z] [DecidableEq ε] [DecidableEq p] [Field K] [LinearOrder K]

/-- A spell that is too long for the tables is looked up outside of them. -/
theorem tFunc_outside (m : Model z ε p o K) (hz : Fintype.card z ≠ 0) (state : p ⊕ z → K) (shocks : ε → K) (k : Nat) (hk : m.tables.Kk ≤ k)
    (hL : 0 < m.tables.L) : ∃ e, tFunc m state shocks (.pair 0 k) false = .error e := by
  unfold tFunc tFuncRaw
  rw [if_neg (fun h => hz h.1)]
  simp only [setLK, Bool.false_eq_true, if_false]
  unfold tFuncJit
  simp only
  rw [if_neg (by omega)]
  have h2 : ∃ e, pyIdx m.tables.Kk (k : Int) = .error e := by
    unfold pyIdx
    split_ifs with h1 h2
    all_goals first
      | exact ⟨_, rfl⟩
      | omega
  obtain ⟨e, he⟩ := h2
  cases pyIdx m.tables.L 0 with
  | error e' => exact ⟨_, rfl⟩
  | ok l =>
    simp only [he]
    exact ⟨_, rfl⟩

end Spell

/-- **C97 (refuted).** With the example of C96 (current parameters `(1/2, 0)`): `irfs(pars=[0, 0])` simulates the current parameters; so does `irfs(l_max=5, k_max=30)`, with the
old bounds `(3, 17)`. With `pars` and the bounds `l_max=2, k_max=2`, a spell `set_k=(0, 10)` is compared with the old bounds and accepted, but the tables have the new ones, and
with `l_max=5, k_max=30` a spell `(0, 20)` is refused though the tables have it. -/
theorem C97_irfs_settings_refuted :
    let run := fun (g : GenArgs) (pars : Option (List Rat)) =>
      (irfsPrepare OrderEx.solver OrderEx.decl ParEx.draws g id OrderEx.solved pars).map fun r => (r.lks, r.pelf.bind (·.a.par), r.pelf.bind (·.a.lks))
    run ⟨none, none, false⟩ (some [0, 0]) = .ok ((3, 17), some [1/2, 0], some (3, 17)) ∧
    (setPar OrderEx.solver OrderEx.decl ParEx.draws ⟨none, none, false⟩ id OrderEx.solved (.vec [0, 0]) none).1.a.par = some [0, 0] ∧
    run ⟨some 5, some 30, false⟩ none = .ok ((3, 17), some [1/2, 0], some (3, 17)) ∧
    run ⟨some 2, some 2, false⟩ (some [1/2, 0]) = .ok ((3, 17), some [1/2, 0], some (3, 2)) ∧
    Tools.tooLong (3, 17) (.pair 0 10) = false ∧ Tools.tooLong (3, 2) (.pair 0 10) = true ∧
    run ⟨some 5, some 30, false⟩ (some [1/2, 0]) = .ok ((3, 17), some [1/2, 0], some (6, 30)) ∧
    Tools.tooLong (3, 17) (.pair 0 20) = true ∧ Tools.tooLong (6, 30) (.pair 0 20) = false := by
  refine ⟨?_, ?_, ?_, ?_, ?_, ?_, ?_, ?_, ?_⟩ <;> decide +kernel

/-- The hypotheses of the partial theorem are met. -/
theorem C97_hypotheses_met :
    WF OrderEx.decl ∧ OrderEx.solved.a.par = some [1/2, 0] ∧
    ((irfsPrepare OrderEx.solver OrderEx.decl ParEx.draws ⟨some 4, some 9, false⟩ id OrderEx.solved (some [0, 1/2])).map fun r =>
      (r.self.a.par, r.pelf.bind (·.a.par), r.pelf.bind (·.a.lks))) = .ok (some [1/2, 0], some [0, 1/2], some (5, 9)) := by
  refine ⟨⟨rfl, by decide, ?_⟩, by decide +kernel, by decide +kernel⟩
  intro p hp
  simp [OrderEx.decl] at hp

section
variable {K PP HX LS TT QQ : Type} [Field K] [LinearOrder K] {S : Solver K PP (List String) HX LS TT QQ} {D : Decl K} {dr : Draws K}
  {g : GenArgs} {sq : QQ → QQ}

/-- What `irfs` makes of the outcome of `set_par`: a `ValueError` gives a result full of NaN, any other exception is raised, and with a solution
the impulse responses are those of the copy with the given parameters. -/
theorem C97_irfs_failures (self : Ob K PP HX LS TT QQ) (v₀ : List K) (hv₀ : self.a.par = some v₀) (lks : Int × Int) (hl : self.a.lks = some lks)
    (v : List K) (hne : ∃ x ∈ v, x ≠ 0) :
    ((setPar S D dr g sq self (.vec v) none).2 = .error .valueError → irfsPrepare S D dr g sq self (some v) = .ok ⟨self, lks, none⟩) ∧
    (∀ e, e ≠ .valueError → (setPar S D dr g sq self (.vec v) none).2 = .error e → irfsPrepare S D dr g sq self (some v) = .error e) ∧
    (∀ w, (setPar S D dr g sq self (.vec v) none).2 = .ok w →
      irfsPrepare S D dr g sq self (some v) = .ok ⟨self, lks, some (setPar S D dr g sq self (.vec v) none).1⟩) := by
  have hany : (v.any fun x => decide (x ≠ 0)) = true := by
    rw [List.any_eq_true]
    obtain ⟨x, hx1, hx2⟩ := hne
    exact ⟨x, hx1, by simpa using hx2⟩
  have hself : ({ self with a := self.a } : Ob K PP HX LS TT QQ) = self := rfl
  have hirfs : irfsPrepare S D dr g sq self (some v) = match setPar S D dr g sq self (.vec v) none with
      | (_, .error .valueError) => .ok ⟨self, lks, none⟩
      | (_, .error e) => .error e
      | (pelf, .ok _) => .ok ⟨self, lks, some pelf⟩ := by
    unfold irfsPrepare
    simp only [hv₀, hl, hany, if_true]
    rcases setPar S D dr g sq self (.vec v) none with ⟨o, e | w⟩
    · cases e <;> rfl
    · rfl
  rw [hirfs]
  rcases setPar S D dr g sq self (.vec v) none with ⟨o, e | w⟩
  · refine ⟨?_, ?_, ?_⟩
    · intro h; cases h; rfl
    · intro e' he' h
      cases h
      cases e <;> first | rfl | exact absurd rfl he'
    · intro w h; cases h
  · refine ⟨?_, ?_, ?_⟩
    · intro h; cases h
    · intro e' _ h; cases h
    · intro w' _; rfl

/-- A row of the result has one entry for every column, or there is an exception; the entries are put under the columns by position. -/
theorem C96_frame_row (columns : List String) (stVec : List K) :
    (stVec.length ≠ columns.length → frameRow columns stVec = .error .valueError) ∧
    (stVec.length = columns.length → ∃ row, frameRow columns stVec = .ok row ∧ row.map Prod.fst = columns ∧ row.map Prod.snd = stVec) := by
  unfold frameRow
  constructor
  · intro h; rw [if_neg h]
  · intro h
    rw [if_pos h]
    exact ⟨_, rfl, List.map_fst_zip (by omega), List.map_snd_zip (by omega)⟩

end

end Pydsge
