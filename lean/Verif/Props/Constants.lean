import Verif.Props.Matrices
import Verif.Model.Pipeline

/-!
# C74: constants are dropped wherever they stand

Adding constants (numbers, parameters, anything without variables and shocks) to any of the model equations and to the constraint changes neither
whether a model is accepted nor the model.
-/

set_option autoImplicit false
set_option linter.unusedSectionVars false
set_option linter.unusedSimpArgs false

namespace Pydsge
open Parser Pipeline

namespace Spec
variable {K : Type}

/-- The expression contains neither variables nor shocks. -/
def Closed : Expr K → Prop
  | .num _ => True
  | .par _ => True
  | .sym _ => False
  | .add a b => Closed a ∧ Closed b
  | .sub a b => Closed a ∧ Closed b
  | .mul a b => Closed a ∧ Closed b
  | .div a b => Closed a ∧ Closed b
  | .neg a => Closed a
  | .pow a _ => Closed a
  | .app _ a b => Closed a ∧ Closed b

/-- The second right hand side is the first, or the first plus a constant. -/
def PlusConstant (a b : Expr K) : Prop := b = a ∨ ∃ c, Closed c ∧ b = .add a c

/-- The same equation up to a constant on its right hand side. -/
def UpToConstant (e f : Eqn K) : Prop := f.lhs = e.lhs ∧ PlusConstant e.rhs f.rhs

end Spec

variable {K : Type}

namespace ConstDrop
open Spec

theorem closed_syms : ∀ {c : Expr K}, Closed c → c.syms = []
  | .num _, _ => rfl
  | .par _, _ => rfl
  | .sym _, h => h.elim
  | .add a b, h => by simp [Expr.syms, closed_syms h.1, closed_syms h.2]
  | .sub a b, h => by simp [Expr.syms, closed_syms h.1, closed_syms h.2]
  | .mul a b, h => by simp [Expr.syms, closed_syms h.1, closed_syms h.2]
  | .div a b, h => by simp [Expr.syms, closed_syms h.1, closed_syms h.2]
  | .neg a, h => by simpa [Expr.syms] using closed_syms (c := a) h
  | .pow a _, h => by simpa [Expr.syms] using closed_syms (c := a) h
  | .app _ a b, h => by simp [Expr.syms, closed_syms h.1, closed_syms h.2]

theorem closed_subs1 (k v : TSym) : ∀ {c : Expr K}, Closed c → c.subs1 k v = c
  | .num _, _ => rfl
  | .par _, _ => rfl
  | .sym _, h => h.elim
  | .add a b, h => by simp [Expr.subs1, closed_subs1 k v h.1, closed_subs1 k v h.2]
  | .sub a b, h => by simp [Expr.subs1, closed_subs1 k v h.1, closed_subs1 k v h.2]
  | .mul a b, h => by simp [Expr.subs1, closed_subs1 k v h.1, closed_subs1 k v h.2]
  | .div a b, h => by simp [Expr.subs1, closed_subs1 k v h.1, closed_subs1 k v h.2]
  | .neg a, h => by simp [Expr.subs1, closed_subs1 k v (c := a) h]
  | .pow a _, h => by simp [Expr.subs1, closed_subs1 k v (c := a) h]
  | .app _ a b, h => by simp [Expr.subs1, closed_subs1 k v h.1, closed_subs1 k v h.2]

theorem add_subs {c : Expr K} (hc : Closed c) : ∀ (d : List (TSym × TSym)) (a : Expr K), (Expr.add a c).subs d = .add (a.subs d) c
  | [], _ => rfl
  | kv :: d, a => by
    have h := add_subs hc d (a.subs1 kv.1 kv.2)
    simp only [Expr.subs] at h ⊢
    simp only [List.foldl_cons, Expr.subs1, closed_subs1 kv.1 kv.2 hc]
    exact h

theorem plus_subs (d : List (TSym × TSym)) {a b : Expr K} (h : PlusConstant a b) : PlusConstant (a.subs d) (b.subs d) := by
  rcases h with rfl | ⟨c, hc, rfl⟩
  · exact .inl rfl
  · exact .inr ⟨c, hc, add_subs hc d a⟩

theorem plus_syms {a b : Expr K} (h : PlusConstant a b) : b.syms = a.syms := by
  rcases h with rfl | ⟨c, hc, rfl⟩
  · rfl
  · simp [Expr.syms, closed_syms hc]

theorem upTo_refl (e : Eqn K) : UpToConstant e e := ⟨rfl, .inl rfl⟩

theorem upTo_subs (d : List (TSym × TSym)) {e f : Eqn K} (h : UpToConstant e f) : UpToConstant (e.subs d) (f.subs d) :=
  ⟨by simp only [Eqn.subs, h.1], plus_subs d h.2⟩

theorem upTo_syms {e f : Eqn K} (h : UpToConstant e f) : f.syms = e.syms := by
  simp only [Eqn.syms, h.1, plus_syms h.2]

theorem forall_refl : ∀ l : List (Eqn K), List.Forall₂ UpToConstant l l
  | [] => .nil
  | e :: es => .cons (upTo_refl e) (forall_refl es)

theorem forall_subs (d : List (TSym × TSym)) {l m : List (Eqn K)} (h : List.Forall₂ UpToConstant l m) :
    List.Forall₂ UpToConstant (l.map (Eqn.subs d)) (m.map (Eqn.subs d)) := by
  induction h with
  | nil => exact .nil
  | cons h1 _ ih => exact .cons (upTo_subs d h1) ih

theorem forall_append {l m l' m' : List (Eqn K)} (h : List.Forall₂ UpToConstant l m) (h' : List.Forall₂ UpToConstant l' m') :
    List.Forall₂ UpToConstant (l ++ l') (m ++ m') := by
  induction h with
  | nil => exact h'
  | cons h1 _ ih => exact .cons h1 ih

theorem flat_syms {l m : List (Eqn K)} (h : List.Forall₂ UpToConstant l m) : m.flatMap Eqn.syms = l.flatMap Eqn.syms := by
  induction h with
  | nil => rfl
  | cons h1 _ ih => simp only [List.flatMap_cons, upTo_syms h1, ih]

/-- The same variables, and the same equations up to constants. -/
def SameState (s t : PState K) : Prop := t.vars = s.vars ∧ List.Forall₂ UpToConstant s.eqs t.eqs

theorem dates_eq {l m : List (Eqn K)} (h : List.Forall₂ UpToConstant l m) (k : Kind) (n : String) : dates k n m = dates k n l := by
  simp only [dates, flat_syms h]

theorem shockStep_same (ord : List (TSym × TSym) → List (TSym × TSym)) (lag : String → Int) (s : String) {p q : PState K} (h : SameState p q) :
    SameState (shockStep ord lag p s) (shockStep ord lag q s) := by
  unfold shockStep
  by_cases hl : (lag s).natAbs > 0
  · simp only [if_pos hl]
    exact ⟨by simp only [h.1], forall_subs _ (forall_append h.2 (forall_refl _))⟩
  · simpa only [if_neg hl] using h

theorem fold_same (ord : List (TSym × TSym) → List (TSym × TSym)) (lag : String → Int) : ∀ (ss : List String) {p q : PState K}, SameState p q →
    SameState (ss.foldl (shockStep ord lag) p) (ss.foldl (shockStep ord lag) q)
  | [], _, _, h => h
  | s :: ss, _, _, h => fold_same ord lag ss (shockStep_same ord lag s h)

theorem shockStage_same (ord : List (TSym × TSym) → List (TSym × TSym)) (vars shocks : List String) {l m : List (Eqn K)}
    (h : List.Forall₂ UpToConstant l m) : SameState (shockStage ord vars shocks l) (shockStage ord vars shocks m) := by
  unfold shockStage
  simp only [dates_eq h]
  exact fold_same ord _ shocks ⟨rfl, h⟩

theorem endoStage_same (ord : List (TSym × TSym) → List (TSym × TSym)) {p q : PState K} (h : SameState p q) :
    SameState (endoStage ord p) (endoStage ord q) := by
  unfold endoStage
  simp only [dates_eq h.2, h.1]
  exact ⟨rfl, forall_subs _ (forall_append h.2 (forall_refl _))⟩

theorem allOccur_eq {l m : List (Eqn K)} (h : List.Forall₂ UpToConstant l m) (k : Kind) (ns : List String) : allOccur k ns m = allOccur k ns l := by
  simp only [allOccur, dates_eq h]

theorem parse_same (ord : List (TSym × TSym) → List (TSym × TSym)) (vars shocks : List String) {l m : List (Eqn K)}
    (h : List.Forall₂ UpToConstant l m) :
    (∃ e, parseEqs ord vars shocks l = .error e ∧ parseEqs ord vars shocks m = .error e) ∨
    ∃ p q, parseEqs ord vars shocks l = .ok p ∧ parseEqs ord vars shocks m = .ok q ∧ SameState p q := by
  have hs := shockStage_same ord vars shocks h
  unfold parseEqs
  rw [← h.length_eq, allOccur_eq h, hs.1, allOccur_eq hs.2]
  by_cases h1 : l.length + 1 ≠ vars.length
  · simp only [if_pos h1]
    exact .inl ⟨_, rfl, rfl⟩
  · simp only [if_neg h1]
    generalize allOccur .shock shocks l = X
    rcases X with e | ⟨⟩
    · exact .inl ⟨_, rfl, rfl⟩
    · generalize allOccur Kind.variable (shockStage ord vars shocks l).vars (shockStage ord vars shocks l).eqs = Y
      rcases Y with e | ⟨⟩
      · exact .inl ⟨_, rfl, rfl⟩
      · exact .inr ⟨_, _, rfl, rfl, endoStage_same ord hs⟩

theorem checkRows_eq (rows : Nat) (vars shocks : List String) {l m : List (Eqn K)} (h : List.Forall₂ UpToConstant l m) :
    ∀ i, checkRows rows vars shocks i m = checkRows rows vars shocks i l := by
  induction h with
  | nil => exact fun _ => rfl
  | cons h1 _ ih =>
    intro i
    simp only [checkRows, rowCheck, upTo_syms h1, ih]

section
variable [Field K]

theorem closed_diff (I : Interp K) (ρ : TSym → K) (s : TSym) : ∀ {c : Expr K}, Closed c → (c.diff s).eval I ρ = 0
  | .num _, _ => rfl
  | .par _, _ => rfl
  | .sym _, h => h.elim
  | .add a b, h => by simp [Expr.diff, Expr.eval, closed_diff I ρ s h.1, closed_diff I ρ s h.2]
  | .sub a b, h => by simp [Expr.diff, Expr.eval, closed_diff I ρ s h.1, closed_diff I ρ s h.2]
  | .mul a b, h => by simp [Expr.diff, Expr.eval, closed_diff I ρ s h.1, closed_diff I ρ s h.2]
  | .div a b, h => by simp [Expr.diff, Expr.eval, closed_diff I ρ s h.1, closed_diff I ρ s h.2]
  | .neg a, h => by simp [Expr.diff, Expr.eval, closed_diff I ρ s (c := a) h]
  | .pow a _, h => by simp [Expr.diff, Expr.eval, closed_diff I ρ s (c := a) h]
  | .app _ a b, h => by simp [Expr.diff, Expr.eval, closed_diff I ρ s h.1, closed_diff I ρ s h.2]

theorem coef_eq (I : Interp K) {e f : Eqn K} (h : UpToConstant e f) (s : TSym) : coef I f.setEqZero s = coef I e.setEqZero s := by
  obtain ⟨h1, h2⟩ := h
  unfold coef
  simp only [Eqn.setEqZero, Expr.syms, plus_syms h2, h1]
  by_cases hm : s ∈ e.lhs.syms ++ e.rhs.syms
  · simp only [if_pos hm, Expr.diff, Expr.eval]
    rcases h2 with h2 | ⟨c, hc, h2⟩
    · rw [h2]
    · rw [h2]
      simp only [Expr.diff, Expr.eval, closed_diff I _ s hc, add_zero]
  · simp only [if_neg hm]

theorem at_eq (I : Interp K) (s : TSym) {l m : List (Eqn K)} (h : List.Forall₂ UpToConstant l m) : ∀ i : Nat,
    (match m[i]? with | some e => coef I e.setEqZero s | none => 0) = (match l[i]? with | some e => coef I e.setEqZero s | none => 0) := by
  induction h with
  | nil => exact fun _ => rfl
  | cons h1 _ ih =>
    rintro (_ | i)
    · simpa using coef_eq I h1 s
    · simpa using ih i

theorem matrices_eq (I : Interp K) (con : Bool) (vars shocks : List String) {l m : List (Eqn K)} (h : List.Forall₂ UpToConstant l m) :
    getMatrices I con vars shocks m = getMatrices I con vars shocks l := by
  unfold getMatrices
  simp only [checkRows_eq _ _ _ h]
  generalize checkRows _ _ _ _ _ = X
  rcases X with e | ⟨⟩
  · rfl
  · have hA : ∀ (s : String → TSym), (fun (i : Nat) (v : String) => match m[i]? with | some e => coef I e.setEqZero (s v) | none => 0) =
        fun (i : Nat) (v : String) => match l[i]? with | some e => coef I e.setEqZero (s v) | none => 0 :=
      fun s => funext fun i => funext fun v => at_eq I (s v) h i
    have hP : (fun (i : Nat) (s : String) => match m[i]? with | some e => -coef I e.setEqZero (ssym s) | none => 0) =
        fun (i : Nat) (s : String) => match l[i]? with | some e => -coef I e.setEqZero (ssym s) | none => 0 := by
      funext i s
      have := at_eq I (ssym s) h i
      revert this
      generalize m[i]? = x
      generalize l[i]? = y
      rcases x with _ | x <;> rcases y with _ | y <;> simp <;> intro hh <;> simp [hh]
    have h1 := hA (fun v => vsym v 1)
    have h0 := hA (fun v => vsym v 0)
    have hm := hA (fun v => vsym v (-1))
    refine congrArg Except.ok ?_
    rw [Mats.mk.injEq]
    exact ⟨rfl, h1, h0, hm, hP⟩

theorem constraint_eq (I : Interp K) (vars shocks : List String) {e f : Eqn K} (h : UpToConstant e f) :
    getConstraint I vars shocks f = getConstraint I vars shocks e := by
  unfold getConstraint
  simp only [upTo_syms h, coef_eq I h]

end
end ConstDrop

variable [Field K]
open ConstDrop

/-- **C74** (what happens instead): constants that are added to equations and to the constraint, in any number and of any form, change neither
whether the file is accepted nor the model: the same error, or the same matrices, the same constraint, the same observables. -/
theorem C74_dropped (ord : List (TSym × TSym) → List (TSym × TSym)) (I : Interp K) (src : Source K) (eqs : List (Eqn K)) (crhs : Expr K)
    (he : List.Forall₂ Spec.UpToConstant src.eqs eqs) (hc : Spec.PlusConstant src.crhs crhs) :
    (∃ e, compile ord I src = .error e ∧ compile ord I { src with eqs := eqs, crhs := crhs } = .error e) ∨
    ∃ C st, compile ord I src = .ok C ∧ compile ord I { src with eqs := eqs, crhs := crhs } = .ok { C with st := st } ∧
      st.vars = C.st.vars := by
  unfold compile
  by_cases h1 : src.cvar ∉ src.vars
  · simp only [if_pos h1]
    exact .inl ⟨_, rfl, rfl⟩
  · simp only [if_neg h1]
    rcases parse_same ord src.vars src.shocks he with ⟨e, h2, h3⟩ | ⟨p, q, h2, h3, h4⟩
    · simp only [h2, h3]
      exact .inl ⟨_, rfl, rfl⟩
    · simp only [h2, h3]
      have h5 : getConstraint I (unique q.vars) src.shocks (Source.con { src with eqs := eqs, crhs := crhs }) =
          getConstraint I (unique p.vars) src.shocks src.con := by
        rw [h4.1]
        exact constraint_eq I _ _ ⟨rfl, hc⟩
      have h6 : fvarsOf q.eqs = fvarsOf p.eqs := by simp only [fvarsOf, flat_syms h4.2]
      rw [h5, h4.1, matrices_eq I true _ _ h4.2, h6]
      generalize getConstraint I _ _ _ = X
      rcases X with e | R
      · exact .inl ⟨_, rfl, rfl⟩
      · generalize getMatrices I true _ _ _ = Y
        rcases Y with e | M
        · exact .inl ⟨_, rfl, rfl⟩
        · simp only
          generalize obsRows I _ _ _ = Z
          rcases Z with e | os
          · exact .inl ⟨_, rfl, rfl⟩
          · exact .inr ⟨⟨p, M, R, os⟩, q, rfl, rfl, h4.1⟩

/-- **C74**: what is handed to the solution is then the same, so that every result is that of the model without the constants. -/
theorem C74_same_input {E ν ε o : Type} {ord : List (TSym × TSym) → List (TSym × TSym)} {I : Interp K} {src : Source K} {eqs : List (Eqn K)}
    {crhs : Expr K} (he : List.Forall₂ Spec.UpToConstant src.eqs eqs) (hc : Spec.PlusConstant src.crhs crhs) {C C' : Compiled K}
    (h : compile ord I src = .ok C) (h' : compile ord I { src with eqs := eqs, crhs := crhs } = .ok C') (L : Labels E ν ε o src.shocks C)
    (cv : ν) (xbar : K) : ∃ L' : Labels E ν ε o src.shocks C', (∀ i, (L'.row i : Nat) = L.row i) ∧ (∀ v, (L'.vn v : String) = L.vn v) ∧
      (∀ s, L'.sn s = L.sn s) ∧ inputOf L' cv xbar = inputOf L cv xbar := by
  rcases C74_dropped ord I src eqs crhs he hc with ⟨e, h1, _⟩ | ⟨D, st, h1, h2, _⟩
  · rw [h] at h1
    cases h1
  · have e1 := Except.ok.inj (h.symm.trans h1)
    have e2 := Except.ok.inj (h'.symm.trans h2)
    subst e1
    subst e2
    exact ⟨⟨L.row, L.vn, L.sn, L.on⟩, fun _ => rfl, fun _ => rfl, fun _ => rfl, rfl⟩

namespace MatEx

/-- `x = x(-1) + e - r`, `r = max(x, ...)`, and the same with the constants `2` and `a` (a parameter). -/
def plainSrc : Source Rat :=
  ⟨["x", "r"], ["e"], [⟨.sym (vsym "x"), .sub (.add (.sym (vsym "x" (-1))) (.sym (ssym "e"))) (.sym (vsym "r"))⟩], "r", .sym (vsym "x"), []⟩

def shiftedEqs : List (Eqn Rat) := [⟨.sym (vsym "x"), .add (.sub (.add (.sym (vsym "x" (-1))) (.sym (ssym "e"))) (.sym (vsym "r"))) (.num 2)⟩]

def shiftedRule : Expr Rat := .add (.sym (vsym "x")) (.par "a")

end MatEx

/-- A file that is accepted, with constants in its equation and in its constraint. -/
theorem C74_dropped_hypotheses_met : List.Forall₂ Spec.UpToConstant MatEx.plainSrc.eqs MatEx.shiftedEqs ∧
    Spec.PlusConstant MatEx.plainSrc.crhs MatEx.shiftedRule ∧ MatEx.plainSrc.eqs ≠ MatEx.shiftedEqs ∧
    (compile id MatEx.I MatEx.plainSrc).toOption.isSome = true ∧
    (compile id MatEx.I { MatEx.plainSrc with eqs := MatEx.shiftedEqs, crhs := MatEx.shiftedRule }).toOption.isSome = true :=
  ⟨.cons ⟨rfl, .inr ⟨.num 2, trivial, rfl⟩⟩ .nil, .inr ⟨.par "a", trivial, rfl⟩, by decide +kernel, by decide +kernel, by decide +kernel⟩

end Pydsge
