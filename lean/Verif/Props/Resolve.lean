import Verif.Model.Resolve
import Verif.Props.ModelFile
import Verif.Props.ModelFileEx

/-!
# C121, C122, C123: the names of a model file, and which files are accepted
-/

set_option autoImplicit false
set_option linter.unusedSectionVars false
set_option linter.unusedSimpArgs false

namespace Pydsge
open Matrix Parser Spec GenSys Engine Tools Pipeline Resolve

namespace Spec
variable {K : Type}

/-- The names that an expression mentions. -/
def names : Raw K → List String
  | .num _ => []
  | .name n => [n]
  | .call n _ => [n]
  | .add a b => names a ++ names b
  | .sub a b => names a ++ names b
  | .mul a b => names a ++ names b
  | .div a b => names a ++ names b
  | .neg a => names a
  | .pow a _ => names a
  | .app _ a b => names a ++ names b

/-- The names that an equation mentions. -/
def eqNames (e : RawEq K) : List String := names e.first ++ e.rest.flatMap names

/-- The value of an expression of the file in period `t`: declared variables and shocks are those of the path, everything else is a
parameter. -/
def rawVal [Field K] (f : File K) (I : Interp K) (p : Path K) (t : Int) : Raw K → K
  | .num c => c
  | .name n => if n ∈ f.vars then p .variable n t else if n ∈ f.shocks then p .shock n t else I.par n
  | .call n i => if n ∈ f.vars then p .variable n (t + i) else if n ∈ f.shocks then p .shock n (t + i) else I.par n
  | .add a b => rawVal f I p t a + rawVal f I p t b
  | .sub a b => rawVal f I p t a - rawVal f I p t b
  | .mul a b => rawVal f I p t a * rawVal f I p t b
  | .div a b => rawVal f I p t a / rawVal f I p t b
  | .neg a => -rawVal f I p t a
  | .pow a n => rawVal f I p t a ^ n
  | .app g a b => I.fn g (rawVal f I p t a) (rawVal f I p t b)

/-- An equation of the file holds in period `t`; without `=` the expression is zero. -/
def RawHolds [Field K] (f : File K) (I : Interp K) (p : Path K) (t : Int) (e : RawEq K) : Prop :=
  match e.rest with
  | [] => rawVal f I p t e.first = 0
  | r :: _ => rawVal f I p t e.first = rawVal f I p t r

end Spec

section
variable {K : Type}

/-! ## The context -/

theorem find_last {α : Type} (l : List String) (m : α) (n : String) (rest : Option (String × α)) :
    (((l.map (·, m)).reverse.find? (fun e => e.1 = n)).or rest).map Prod.snd = if n ∈ l then some m else rest.map Prod.snd := by
  by_cases h : n ∈ l
  · rw [if_pos h]
    cases hf : (l.map (·, m)).reverse.find? (fun e => e.1 = n) with
    | none =>
      rw [List.find?_eq_none] at hf
      exact absurd (hf (n, m) (List.mem_reverse.2 (List.mem_map.2 ⟨n, h, rfl⟩))) (by simp)
    | some e =>
      obtain ⟨x, _, hx⟩ := List.mem_map.1 (List.mem_reverse.1 (List.mem_of_find?_eq_some hf))
      rw [← hx]; rfl
  · rw [if_neg h]
    have : (l.map (·, m)).reverse.find? (fun e => e.1 = n) = none := by
      rw [List.find?_eq_none]
      intro e he
      obtain ⟨x, hx, rfl⟩ := List.mem_map.1 (List.mem_reverse.1 he)
      simp only [decide_eq_true_eq]
      rintro rfl; exact h hx
    rw [this]; rfl

/-- What a name means: of several declarations the last one in the order variables, parameters, shocks, functions of parameters. -/
theorem context_eq (vars pars shocks other : List String) (n : String) :
    context vars pars shocks other n =
      if n ∈ other then some .par else if n ∈ shocks then some (.sym .shock) else if n ∈ pars then some .par
      else if n ∈ vars then some (.sym .variable) else none := by
  unfold context entries
  simp only [List.reverse_append, List.find?_append]
  rw [find_last]
  congr 1
  rw [find_last]
  congr 1
  rw [find_last]
  congr 1
  have := find_last vars (Meaning.sym .variable) n none
  rw [Option.or_none] at this
  exact this

theorem context_variable {vars pars shocks other : List String} {n : String}
    (h : context vars pars shocks other n = some (.sym .variable)) : n ∈ vars ∧ n ∉ pars ∧ n ∉ shocks ∧ n ∉ other := by
  rw [context_eq] at h
  by_cases h1 : n ∈ other
  · rw [if_pos h1] at h; cases h
  rw [if_neg h1] at h
  by_cases h2 : n ∈ shocks
  · rw [if_pos h2] at h; cases h
  rw [if_neg h2] at h
  by_cases h3 : n ∈ pars
  · rw [if_pos h3] at h; cases h
  rw [if_neg h3] at h
  by_cases h4 : n ∈ vars
  · exact ⟨h4, h3, h2, h1⟩
  · rw [if_neg h4] at h; cases h

theorem context_shock {vars pars shocks other : List String} {n : String}
    (h : context vars pars shocks other n = some (.sym .shock)) : n ∈ shocks ∧ n ∉ other := by
  rw [context_eq] at h
  by_cases h1 : n ∈ other
  · rw [if_pos h1] at h; cases h
  rw [if_neg h1] at h
  by_cases h2 : n ∈ shocks
  · exact ⟨h2, h1⟩
  rw [if_neg h2] at h
  by_cases h3 : n ∈ pars
  · rw [if_pos h3] at h; cases h
  rw [if_neg h3] at h
  by_cases h4 : n ∈ vars
  · rw [if_pos h4] at h; cases h
  · rw [if_neg h4] at h; cases h

theorem context_none (vars pars shocks other : List String) (n : String) :
    context vars pars shocks other n = none ↔ n ∉ vars ∧ n ∉ pars ∧ n ∉ shocks ∧ n ∉ other := by
  rw [context_eq]
  split_ifs <;> simp_all

/-! ## Expressions -/

theorem bind_ok {α β : Type} {x : Except PyErr α} {g : α → Except PyErr β} {b : β} (h : (x >>= g) = .ok b) :
    ∃ a, x = .ok a ∧ g a = .ok b := by
  cases x with
  | error e => cases h
  | ok a => exact ⟨a, rfl, h⟩

/-- The symbols of an expression are those that the context gives. -/
theorem evalRaw_syms (ctx : String → Option Meaning) (r : Raw K) (e : Expr K) (h : evalRaw ctx r = .ok e) :
    ∀ s ∈ e.syms, ctx s.name = some (.sym s.kind) ∧ s.name ∈ names r := by
  induction r generalizing e with
  | num c => simp only [evalRaw, Except.ok.injEq] at h; subst h; simp [Expr.syms]
  | name n =>
    simp only [evalRaw] at h
    cases hc : ctx n with
    | none => rw [hc] at h; cases h
    | some m =>
      rw [hc] at h
      cases m with
      | par => simp only [Except.ok.injEq] at h; subst h; simp [Expr.syms]
      | sym k => simp only [Except.ok.injEq] at h; subst h; simp [Expr.syms, TSym.mk', names, hc]
  | call n i =>
    simp only [evalRaw] at h
    cases hc : ctx n with
    | none => rw [hc] at h; cases h
    | some m =>
      rw [hc] at h
      cases m with
      | par => cases h
      | sym k => simp only [Except.ok.injEq] at h; subst h; simp [Expr.syms, TSym.mk', TSym.call, names, hc]
  | add a b iha ihb | sub a b iha ihb | mul a b iha ihb | div a b iha ihb | app f a b iha ihb =>
    simp only [evalRaw] at h
    obtain ⟨x, hx, h⟩ := bind_ok h
    obtain ⟨y, hy, h⟩ := bind_ok h
    cases h
    intro s hs
    simp only [Expr.syms, List.mem_append] at hs
    simp only [names, List.mem_append]
    rcases hs with hs | hs
    · exact ⟨(iha x hx s hs).1, Or.inl (iha x hx s hs).2⟩
    · exact ⟨(ihb y hy s hs).1, Or.inr (ihb y hy s hs).2⟩
  | neg a iha | pow a n iha =>
    simp only [evalRaw] at h
    obtain ⟨x, hx, h⟩ := bind_ok h
    cases h
    intro s hs
    exact iha x hx s hs

/-- A name that means a symbol of the model is one of the symbols of the expression. -/
theorem evalRaw_mem (ctx : String → Option Meaning) (r : Raw K) (e : Expr K) (h : evalRaw ctx r = .ok e) (n : String) (k : Kind)
    (hn : n ∈ names r) (hc : ctx n = some (.sym k)) : ∃ s ∈ e.syms, s.kind = k ∧ s.name = n := by
  induction r generalizing e with
  | num c => cases hn
  | name m =>
    simp only [names, List.mem_singleton] at hn; subst hn
    simp only [evalRaw, hc, Except.ok.injEq] at h; subst h
    exact ⟨_, List.mem_singleton.2 rfl, rfl, rfl⟩
  | call m i =>
    simp only [names, List.mem_singleton] at hn; subst hn
    simp only [evalRaw, hc, Except.ok.injEq] at h; subst h
    exact ⟨_, List.mem_singleton.2 rfl, rfl, rfl⟩
  | add a b iha ihb | sub a b iha ihb | mul a b iha ihb | div a b iha ihb | app f a b iha ihb =>
    simp only [evalRaw] at h
    obtain ⟨x, hx, h⟩ := bind_ok h
    obtain ⟨y, hy, h⟩ := bind_ok h
    cases h
    simp only [names, List.mem_append] at hn
    rcases hn with hn | hn
    · obtain ⟨s, hs, h'⟩ := iha x hx hn; exact ⟨s, List.mem_append_left _ hs, h'⟩
    · obtain ⟨s, hs, h'⟩ := ihb y hy hn; exact ⟨s, List.mem_append_right _ hs, h'⟩
  | neg a iha | pow a n iha =>
    simp only [evalRaw] at h
    obtain ⟨x, hx, h⟩ := bind_ok h
    cases h
    exact iha x hx hn

/-- Every name of an expression that can be read is declared. -/
theorem evalRaw_declared (ctx : String → Option Meaning) (r : Raw K) (e : Expr K) (h : evalRaw ctx r = .ok e) (n : String)
    (hn : n ∈ names r) : ctx n ≠ none := by
  induction r generalizing e with
  | num c => cases hn
  | name m =>
    simp only [names, List.mem_singleton] at hn; subst hn
    intro hc
    simp only [evalRaw, hc] at h; cases h
  | call m i =>
    simp only [names, List.mem_singleton] at hn; subst hn
    intro hc
    simp only [evalRaw, hc] at h; cases h
  | add a b iha ihb | sub a b iha ihb | mul a b iha ihb | div a b iha ihb | app f a b iha ihb =>
    simp only [evalRaw] at h
    obtain ⟨x, hx, h⟩ := bind_ok h
    obtain ⟨y, hy, h⟩ := bind_ok h
    simp only [names, List.mem_append] at hn
    rcases hn with hn | hn
    · exact iha x hx hn
    · exact ihb y hy hn
  | neg a iha | pow a n iha =>
    simp only [evalRaw] at h
    obtain ⟨x, hx, h⟩ := bind_ok h
    exact iha x hx hn

end

section
variable {K : Type} [Field K]

/-- The value of an expression is that of the text, if the context gives variables and shocks as declared. -/
theorem evalRaw_val (f : File K) (ctx : String → Option Meaning)
    (hv : ∀ n m, ctx n = some m → (n ∈ f.vars → m = .sym .variable) ∧ (n ∉ f.vars → n ∈ f.shocks → m = .sym .shock) ∧
      (n ∉ f.vars → n ∉ f.shocks → m = .par))
    (r : Raw K) (e : Expr K) (h : evalRaw ctx r = .ok e) (I : Interp K) (p : Path K) (t : Int) :
    e.eval I (p.at t) = rawVal f I p t r := by
  induction r generalizing e with
  | num c => simp only [evalRaw, Except.ok.injEq] at h; subst h; rfl
  | name n =>
    simp only [evalRaw] at h
    cases hc : ctx n with
    | none => rw [hc] at h; cases h
    | some m =>
      obtain ⟨h1, h2, h3⟩ := hv n m hc
      rw [hc] at h
      by_cases hn : n ∈ f.vars
      · rw [h1 hn] at h; simp only [Except.ok.injEq] at h; subst h
        simp [Expr.eval, rawVal, hn, Path.at, TSym.mk']
      · by_cases hs : n ∈ f.shocks
        · rw [h2 hn hs] at h; simp only [Except.ok.injEq] at h; subst h
          simp [Expr.eval, rawVal, hn, hs, Path.at, TSym.mk']
        · rw [h3 hn hs] at h; simp only [Except.ok.injEq] at h; subst h
          simp [Expr.eval, rawVal, hn, hs]
  | call n i =>
    simp only [evalRaw] at h
    cases hc : ctx n with
    | none => rw [hc] at h; cases h
    | some m =>
      obtain ⟨h1, h2, h3⟩ := hv n m hc
      rw [hc] at h
      by_cases hn : n ∈ f.vars
      · rw [h1 hn] at h; simp only [Except.ok.injEq] at h; subst h
        simp [Expr.eval, rawVal, hn, Path.at, TSym.mk', TSym.call]
      · by_cases hs : n ∈ f.shocks
        · rw [h2 hn hs] at h; simp only [Except.ok.injEq] at h; subst h
          simp [Expr.eval, rawVal, hn, hs, Path.at, TSym.mk', TSym.call]
        · rw [h3 hn hs] at h; cases h
  | add a b iha ihb | sub a b iha ihb | mul a b iha ihb | div a b iha ihb | app f a b iha ihb =>
    simp only [evalRaw] at h
    obtain ⟨x, hx, h⟩ := bind_ok h
    obtain ⟨y, hy, h⟩ := bind_ok h
    cases h
    simp only [Expr.eval, rawVal, iha x hx, ihb y hy]
  | neg a iha | pow a n iha =>
    simp only [evalRaw] at h
    obtain ⟨x, hx, h⟩ := bind_ok h
    cases h
    simp only [Expr.eval, rawVal, iha x hx]

/-! ## Equations and files -/

theorem orSyntax_ok {α : Type} {x : Except PyErr α} {a : α} (h : orSyntax x = .ok a) : x = .ok a := by
  cases x with
  | error e => cases h
  | ok b => exact h

/-- A model equation that can be read. -/
theorem readEq_ok (ctx : String → Option Meaning) (e : RawEq K) (e' : Eqn K) (h : readEq ctx e = .ok e') :
    ∃ r, (e.rest = [] ∧ r = .num 0 ∨ e.rest = [r]) ∧ evalRaw ctx e.first = .ok e'.lhs ∧ evalRaw ctx r = .ok e'.rhs := by
  unfold readEq at h
  simp only at h
  split at h
  · rename_i hr
    obtain ⟨x, hx, h⟩ := bind_ok (orSyntax_ok h)
    obtain ⟨y, hy, h⟩ := bind_ok h
    cases h
    exact ⟨.num 0, Or.inl ⟨hr, rfl⟩, hx, hy⟩
  · rename_i r hr
    obtain ⟨x, hx, h⟩ := bind_ok (orSyntax_ok h)
    obtain ⟨y, hy, h⟩ := bind_ok h
    cases h
    exact ⟨r, Or.inr hr, hx, hy⟩
  · cases h

/-- Reading the equations is reading each of them. -/
theorem readEqs_ok (ctx : String → Option Meaning) (es : List (RawEq K)) (es' : List (Eqn K)) (h : readEqs ctx es = .ok es') :
    List.Forall₂ (fun e e' => readEq ctx e = .ok e') es es' := by
  induction es generalizing es' with
  | nil => simp only [readEqs, Except.ok.injEq] at h; subst h; exact .nil
  | cons e es ih =>
    simp only [readEqs] at h
    cases h1 : readEq ctx e with
    | error err => simp only [h1] at h; cases h
    | ok e1 =>
      simp only [h1] at h
      cases h2 : readEqs ctx es with
      | error err => simp only [h2] at h; cases h
      | ok es1 =>
        simp only [h2, Except.ok.injEq] at h
        subst h
        exact .cons h1 (ih es1 h2)

theorem readEqs_mem {ctx : String → Option Meaning} {es : List (RawEq K)} {es' : List (Eqn K)} (h : readEqs ctx es = .ok es')
    (e : RawEq K) (he : e ∈ es) : ∃ e' ∈ es', readEq ctx e = .ok e' := by
  have := readEqs_ok ctx es es' h
  clear h
  induction this with
  | nil => cases he
  | cons hr _ ih =>
    rcases List.mem_cons.1 he with rfl | he
    · exact ⟨_, List.mem_cons_self .., hr⟩
    · obtain ⟨e', he', h⟩ := ih he
      exact ⟨e', List.mem_cons_of_mem _ he', h⟩

theorem readObs_ok (ctx : String → Option Meaning) (es : List (Raw K)) (es' : List (Expr K)) (h : readObs ctx es = .ok es') :
    List.Forall₂ (fun e e' => evalRaw ctx e = .ok e') es es' := by
  induction es generalizing es' with
  | nil => simp only [readObs, Except.ok.injEq] at h; subst h; exact .nil
  | cons e es ih =>
    simp only [readObs] at h
    cases h1 : evalRaw ctx e with
    | error err => simp only [h1] at h; cases h
    | ok e1 =>
      simp only [h1] at h
      cases h2 : readObs ctx es with
      | error err => simp only [h2] at h; cases h
      | ok es1 =>
        simp only [h2, Except.ok.injEq] at h
        subst h
        exact .cons h1 (ih es1 h2)

/-- What a file that is accepted has gone through. -/
theorem read_ok {ord : List (TSym × TSym) → List (TSym × TSym)} {I : Interp K} {f : File K} {src : Source K} {C : Compiled K}
    (h : readFile ord I f = .ok (src, C)) :
    src.vars = f.vars ∧ src.shocks = f.shocks ∧ compile ord I src = .ok C ∧
      readEqs (context f.vars f.pars f.shocks f.other) f.eqs = .ok src.eqs ∧
      readObs (obsContext (context f.vars f.pars f.shocks f.other)) f.obs = .ok src.obs ∧
      ∃ r, f.cons = [(src.cvar, [r])] ∧ evalRaw (context f.vars f.pars f.shocks f.other) r = .ok src.crhs := by
  unfold readFile at h
  by_cases h0 : (f.vars.any (fun v => ' ' ∈ v.toList)) = true
  · rw [if_pos h0] at h; cases h
  rw [if_neg h0] at h
  simp only at h
  split at h
  · cases h
  · rename_i c hcons
    cases h1 : readCon (context f.vars f.pars f.shocks f.other) c.1 c.2 with
    | error e => simp only [h1] at h; cases h
    | ok rhs =>
      simp only [h1] at h
      by_cases h2 : f.eqs.length + 1 ≠ f.vars.length
      · rw [if_pos h2] at h; cases h
      rw [if_neg h2] at h
      cases h3 : readEqs (context f.vars f.pars f.shocks f.other) f.eqs with
      | error e => simp only [h3] at h; cases h
      | ok eqs =>
        simp only [h3] at h
        cases h4 : parseEqs ord f.vars f.shocks eqs with
        | error e => simp only [h4] at h; cases h
        | ok st =>
          simp only [h4] at h
          cases h5 : readObs (obsContext (context f.vars f.pars f.shocks f.other)) f.obs with
          | error e => simp only [h5] at h; cases h
          | ok obs =>
            simp only [h5] at h
            cases h6 : compile ord I ⟨f.vars, f.shocks, eqs, c.1, rhs, obs⟩ with
            | error e => simp only [h6] at h; cases h
            | ok C' =>
              simp only [h6, Except.ok.injEq, Prod.mk.injEq] at h
              obtain ⟨rfl, rfl⟩ := h
              refine ⟨rfl, rfl, h6, rfl, rfl, ?_⟩
              unfold readCon at h1
              split at h1
              · rename_i r hr
                obtain ⟨x, _, hx⟩ := bind_ok (orSyntax_ok h1)
                exact ⟨r, by rw [hcons, ← hr], hx⟩
              · cases h1
  · cases h

theorem allOccur_ok {k : Kind} {ns : List String} {eqs : List (Eqn K)} (h : allOccur k ns eqs = .ok ()) (n : String) (hn : n ∈ ns) :
    ∃ e ∈ eqs, ∃ s ∈ e.syms, s.kind = k ∧ s.name = n := by
  unfold allOccur at h
  by_cases h' : (ns.all (fun n => !(dates k n eqs).isEmpty)) = true
  · rw [List.all_eq_true] at h'
    have := h' n hn
    cases hd : dates k n eqs with
    | nil => rw [hd] at this; simp at this
    | cons d ds =>
      have hm : d ∈ dates k n eqs := by rw [hd]; exact List.mem_cons_self ..
      unfold dates at hm
      obtain ⟨s, hs, _⟩ := List.mem_map.1 hm
      obtain ⟨hs1, hs2⟩ := List.mem_filter.1 hs
      obtain ⟨e, he, hse⟩ := List.mem_flatMap.1 hs1
      simp only [decide_eq_true_eq] at hs2
      exact ⟨e, he, s, hse, hs2⟩
  · rw [if_neg h'] at h; cases h

theorem parseEqs_occur {ord : List (TSym × TSym) → List (TSym × TSym)} {vars shocks : List String} {eqs : List (Eqn K)} {st : PState K}
    (h : parseEqs ord vars shocks eqs = .ok st) : allOccur .shock shocks eqs = .ok () ∧
      allOccur .variable (shockStage ord vars shocks eqs).vars (shockStage ord vars shocks eqs).eqs = .ok () := by
  unfold parseEqs at h
  split at h
  · cases h
  · split at h
    · cases h
    · rename_i h1
      split at h
      · cases h
      · rename_i h2
        exact ⟨h1, h2⟩

variable {ord : List (TSym × TSym) → List (TSym × TSym)} {I : Interp K} {f : File K} {src : Source K} {C : Compiled K}

/-- Every symbol of the equations comes from a name of the file. -/
theorem readEqs_syms {ctx : String → Option Meaning} {es : List (RawEq K)} {es' : List (Eqn K)} (h : readEqs ctx es = .ok es')
    (e' : Eqn K) (he : e' ∈ es') (s : TSym) (hs : s ∈ e'.syms) :
    ctx s.name = some (.sym s.kind) ∧ ∃ e ∈ es, s.name ∈ eqNames e := by
  have := readEqs_ok ctx es es' h
  clear h
  induction this with
  | nil => cases he
  | cons hr _ ih =>
    rcases List.mem_cons.1 he with rfl | he
    · obtain ⟨r, hrest, h1, h2⟩ := readEq_ok ctx _ _ hr
      rcases List.mem_append.1 hs with hs | hs
      · obtain ⟨a, b⟩ := evalRaw_syms ctx _ _ h1 s hs
        exact ⟨a, _, List.mem_cons_self .., List.mem_append_left _ b⟩
      · obtain ⟨a, b⟩ := evalRaw_syms ctx _ _ h2 s hs
        refine ⟨a, _, List.mem_cons_self .., List.mem_append_right _ ?_⟩
        rcases hrest with ⟨_, rfl⟩ | hrest
        · cases b
        · rw [hrest]; simpa using b
    · obtain ⟨a, e, hm, b⟩ := ih he
      exact ⟨a, e, List.mem_cons_of_mem _ hm, b⟩

theorem variables_mean (ho : IsOrder ord) (h : readFile ord I f = .ok (src, C)) (n : String) (hn : n ∈ f.vars) :
    context f.vars f.pars f.shocks f.other n = some (.sym .variable) ∧ ∃ e ∈ f.eqs, n ∈ eqNames e := by
  obtain ⟨hv, hs, hC, hE, _, _⟩ := read_ok h
  obtain ⟨_, hp, _, hM, _⟩ := compile_ok hC
  have hv1 : (shockStage ord src.vars src.shocks src.eqs).vars = src.vars ++ (lagged (lagOf src.eqs) src.shocks).map varOf :=
    shockFold_vars ord _ src.shocks ⟨src.vars, src.eqs⟩
  have hn1 : n ∈ src.vars := by rw [hv]; exact hn
  obtain ⟨e, he, s, hse, hk, hname⟩ := allOccur_ok (parseEqs_occur hp).2 n (by rw [hv1]; exact List.mem_append_left _ hn1)
  rcases shockFold_syms ord ho _ src.shocks ⟨src.vars, src.eqs⟩ e he s hse with ⟨e', he', hs'⟩ | ⟨m, hm, d, _, rfl⟩ | ⟨m, _, rfl⟩
  · obtain ⟨a, b⟩ := readEqs_syms hE e' he' s hs'
    rw [hk, hname] at a
    rw [hname] at b
    exact ⟨a, b⟩
  · have hvar : varOf m = n := hname
    exfalso
    rcases added_nodup I hp _ hM with hnd | ⟨h0, _⟩
    · rw [(parseEqs_ok hp).2, endoStage_vars, hv1, List.append_assoc, List.nodup_append] at hnd
      exact hnd.2.2 n hn1 n (List.mem_append_left _ (List.mem_map.2 ⟨m, hm, hvar⟩)) rfl
    · rw [h0] at hm; cases hm
  · simp [ssym, TSym.mk'] at hk

theorem shocks_mean (h : readFile ord I f = .ok (src, C)) (n : String) (hn : n ∈ f.shocks) :
    context f.vars f.pars f.shocks f.other n = some (.sym .shock) ∧ ∃ e ∈ f.eqs, n ∈ eqNames e := by
  obtain ⟨hv, hs, hC, hE, _, _⟩ := read_ok h
  obtain ⟨_, hp, _, hM, _⟩ := compile_ok hC
  obtain ⟨e, he, s, hse, hk, hname⟩ := allOccur_ok (parseEqs_occur hp).1 n (by rw [hs]; exact hn)
  obtain ⟨a, b⟩ := readEqs_syms hE e he s hse
  rw [hk, hname] at a
  rw [hname] at b
  exact ⟨a, b⟩

theorem context_as_declared (ho : IsOrder ord) (h : readFile ord I f = .ok (src, C)) (n : String) (m : Meaning)
    (hc : context f.vars f.pars f.shocks f.other n = some m) :
    (n ∈ f.vars → m = .sym .variable) ∧ (n ∉ f.vars → n ∈ f.shocks → m = .sym .shock) ∧ (n ∉ f.vars → n ∉ f.shocks → m = .par) := by
  refine ⟨fun hv => ?_, fun _ hs => ?_, fun hv hs => ?_⟩
  · have := (variables_mean ho h n hv).1
    rw [hc] at this; exact Option.some.inj this
  · have := (shocks_mean h n hs).1
    rw [hc] at this; exact Option.some.inj this
  · cases m with
    | par => rfl
    | sym k =>
      cases k with
      | «variable» => exact absurd (context_variable hc).1 hv
      | shock => exact absurd (context_shock hc).1 hs

/-- **C121**, clashes of names: in a file that is accepted, the name of a variable is not also that of a parameter, a shock or a function of
parameters, and the name of a shock is not that of a function of parameters. -/
theorem C121_clashes_rejected_partial (ho : IsOrder ord) (h : readFile ord I f = .ok (src, C)) :
    (∀ n ∈ f.vars, n ∉ f.pars ∧ n ∉ f.shocks ∧ n ∉ f.other) ∧ ∀ n ∈ f.shocks, n ∉ f.other :=
  ⟨fun n hn => (context_variable (variables_mean ho h n hn).1).2, fun n hn => (context_shock (shocks_mean h n hn).1).2⟩

/-- **C121**, meaning: the equations that the parser works with, the right hand side of the constraint and the measurement equations have the
values of the text of the file, with every name as declared, along every path and in every period. -/
theorem C121_names_as_declared (ho : IsOrder ord) (h : readFile ord I f = .ok (src, C)) (p : Path K) (t : Int) :
    List.Forall₂ (fun e e' => HoldsAt I p e' t ↔ RawHolds f I p t e) f.eqs src.eqs ∧
    (∃ r, f.cons = [(src.cvar, [r])] ∧ src.crhs.eval I (p.at t) = rawVal f I p t r) ∧
    List.Forall₂ (fun e e' => e'.eval I (p.at t) = rawVal f I p t e) f.obs src.obs := by
  obtain ⟨hv, hs, hC, hE, hO, r, hr, hcr⟩ := read_ok h
  have hctx := context_as_declared ho h
  refine ⟨?_, ⟨r, hr, evalRaw_val f _ hctx r _ hcr I p t⟩, ?_⟩
  · refine (readEqs_ok _ _ _ hE).imp fun e e' he => ?_
    obtain ⟨r, hrest, h1, h2⟩ := readEq_ok _ _ _ he
    have v1 := evalRaw_val f _ hctx _ _ h1 I p t
    have v2 := evalRaw_val f _ hctx _ _ h2 I p t
    unfold HoldsAt RawHolds
    rw [v1, v2]
    rcases hrest with ⟨h0, rfl⟩ | h0
    · rw [h0]; rfl
    · rw [h0]
  · refine (readObs_ok _ _ _ hO).imp fun e e' he => ?_
    refine evalRaw_val f _ ?_ _ _ he I p t
    intro n m hm
    unfold obsContext at hm
    by_cases hn : n = "sum" ∨ n = "range"
    · rw [if_pos hn] at hm; cases hm
    · rw [if_neg hn] at hm; exact hctx n m hm

/-! ## C122: malformed files -/

/-- What is wrong with a file, apart from more than one `=` in a model equation, the number of constraints and the measurement equations. -/
inductive Spec.Defect (f : File K) : Prop
  /-- a name that is not declared, in a model equation -/
  | undeclared (e : RawEq K) (he : e ∈ f.eqs) (n : String) (hn : n ∈ eqNames e) (h : n ∉ f.vars ∧ n ∉ f.pars ∧ n ∉ f.shocks ∧ n ∉ f.other)
  /-- a name that is not declared, in the constraint -/
  | undeclaredCon (c : String × List (Raw K)) (hc : c ∈ f.cons) (n : String) (hn : n = c.1 ∨ ∃ r ∈ c.2, n ∈ names r)
      (h : n ∉ f.vars ∧ n ∉ f.pars ∧ n ∉ f.shocks ∧ n ∉ f.other)
  /-- the constraint is not of the form `variable = expression` -/
  | form (c : String × List (Raw K)) (hc : c ∈ f.cons) (h : c.2.length ≠ 1)
  /-- the numbers of variables and equations differ -/
  | count (h : f.eqs.length + 1 ≠ f.vars.length)
  /-- a shock without any model equation -/
  | unused (n : String) (hn : n ∈ f.shocks) (h : ∀ e ∈ f.eqs, n ∉ eqNames e)
  /-- a space in the name of a variable -/
  | space (n : String) (hn : n ∈ f.vars) (h : ' ' ∈ n.toList)

theorem orSyntax_err {α : Type} {x : Except PyErr α} {e : PyErr} (h : orSyntax x = .error e) : e = .syntaxError := by
  cases x with
  | error e' => cases h; rfl
  | ok b => cases h

theorem readEq_err {ctx : String → Option Meaning} {e : RawEq K} (hr : e.rest.length ≤ 1) {err : PyErr}
    (h : readEq ctx e = .error err) : err = .syntaxError := by
  unfold readEq at h
  simp only at h
  split at h
  · exact orSyntax_err h
  · exact orSyntax_err h
  · rename_i h1 h2
    cases hrest : e.rest with
    | nil => exact absurd hrest h1
    | cons a l =>
      rw [hrest] at hr
      cases l with
      | nil => exact absurd hrest (h2 a)
      | cons b l => simp at hr

theorem readEqs_err {ctx : String → Option Meaning} {es : List (RawEq K)} (hr : ∀ e ∈ es, e.rest.length ≤ 1) {err : PyErr}
    (h : readEqs ctx es = .error err) : err = .syntaxError := by
  induction es with
  | nil => cases h
  | cons e es ih =>
    simp only [readEqs] at h
    cases h1 : readEq ctx e with
    | error err' =>
      simp only [h1, Except.error.injEq] at h
      subst h
      exact readEq_err (hr e (List.mem_cons_self ..)) h1
    | ok e1 =>
      simp only [h1] at h
      cases h2 : readEqs ctx es with
      | error err' =>
        simp only [h2, Except.error.injEq] at h
        subst h
        exact ih (fun e he => hr e (List.mem_cons_of_mem _ he)) h2
      | ok es1 => simp only [h2] at h; cases h

theorem readCon_err {ctx : String → Option Meaning} {c : String} {rhs : List (Raw K)} {err : PyErr} (h : readCon ctx c rhs = .error err) :
    err = .syntaxError := by
  unfold readCon at h
  split at h
  · exact orSyntax_err h
  · cases h; rfl

theorem parseEqs_err {vars shocks : List String} {eqs : List (Eqn K)} {err : PyErr} (h : parseEqs ord vars shocks eqs = .error err) :
    err = .syntaxError := by
  have hall : ∀ k ns (es : List (Eqn K)) e, allOccur k ns es = .error e → e = .syntaxError := by
    intro k ns es e h
    unfold allOccur at h
    split at h
    · cases h
    · cases h; rfl
  unfold parseEqs at h
  split at h
  · cases h; rfl
  · split at h
    · rename_i e h1
      cases h
      exact hall _ _ _ _ h1
    · split at h
      · rename_i e h1
        cases h
        exact hall _ _ _ _ h1
      · cases h

/-- **C122**: a file with exactly one constraint and no model equation with two `=` that has one of the defects raises `SyntaxError`. -/
theorem C122_malformed_partial (h1 : f.cons.length = 1) (h2 : ∀ e ∈ f.eqs, e.rest.length ≤ 1) (hd : Spec.Defect f) :
    readFile ord I f = .error .syntaxError := by
  obtain ⟨c, hc⟩ := List.length_eq_one_iff.1 h1
  unfold readFile
  by_cases h0 : (f.vars.any (fun v => ' ' ∈ v.toList)) = true
  · rw [if_pos h0]
  rw [if_neg h0]
  simp only [hc]
  cases hcon : readCon (context f.vars f.pars f.shocks f.other) c.1 c.2 with
  | error e => simp only [readCon_err hcon]
  | ok rhs =>
    simp only
    by_cases hl : f.eqs.length + 1 ≠ f.vars.length
    · rw [if_pos hl]
    rw [if_neg hl]
    cases hE : readEqs (context f.vars f.pars f.shocks f.other) f.eqs with
    | error e => simp only [readEqs_err h2 hE]
    | ok eqs =>
      simp only
      cases hP : parseEqs ord f.vars f.shocks eqs with
      | error e => simp only [parseEqs_err hP]
      | ok st =>
        exfalso
        cases hd with
        | undeclared e he n hn h =>
          obtain ⟨e', _, hr⟩ := readEqs_mem hE e he
          obtain ⟨r, hrest, e1, e2⟩ := readEq_ok _ _ _ hr
          have hnone := (context_none f.vars f.pars f.shocks f.other n).2 h
          rcases List.mem_append.1 hn with hn | hn
          · exact evalRaw_declared _ _ _ e1 n hn hnone
          · rcases hrest with ⟨h0, rfl⟩ | h0
            · rw [h0] at hn; cases hn
            · rw [h0] at hn
              exact evalRaw_declared _ _ _ e2 n (by simpa using hn) hnone
        | undeclaredCon c' hc' n hn h =>
          rw [hc, List.mem_singleton] at hc'; subst hc'
          have hnone := (context_none f.vars f.pars f.shocks f.other n).2 h
          unfold readCon at hcon
          split at hcon
          · rename_i r hr
            obtain ⟨x, hx, hy⟩ := bind_ok (orSyntax_ok hcon)
            rcases hn with rfl | ⟨r', hr', hn⟩
            · exact evalRaw_declared _ _ _ hx _ (List.mem_singleton.2 rfl) hnone
            · rw [hr, List.mem_singleton] at hr'; subst hr'
              exact evalRaw_declared _ _ _ hy n hn hnone
          · cases hcon
        | form c' hc' h =>
          rw [hc, List.mem_singleton] at hc'; subst hc'
          unfold readCon at hcon
          split at hcon
          · rename_i r hr; rw [hr] at h; exact h rfl
          · cases hcon
        | count h => exact hl h
        | unused n hn h =>
          obtain ⟨e, he, s, hs, _, hname⟩ := allOccur_ok (parseEqs_occur hP).1 n hn
          obtain ⟨_, e', he', hm⟩ := readEqs_syms hE e he s hs
          rw [hname] at hm
          exact h e' he' hm
        | space n hn h => exact h0 (List.any_eq_true.2 ⟨n, hn, by simpa using h⟩)

/-! ## C123: which files are accepted -/

/-- **C123**: in a file that is accepted, every variable and every shock is named in a model equation. -/
theorem C123_used_names_needed (ho : IsOrder ord) (h : readFile ord I f = .ok (src, C)) (n : String) (hn : n ∈ f.vars ∨ n ∈ f.shocks) :
    ∃ e ∈ f.eqs, n ∈ eqNames e := by
  rcases hn with hn | hn
  · exact (variables_mean ho h n hn).2
  · exact (shocks_mean h n hn).2

theorem allOccur_of {k : Kind} {ns : List String} {eqs : List (Eqn K)}
    (h : ∀ n ∈ ns, ∃ e ∈ eqs, ∃ s ∈ e.syms, s.kind = k ∧ s.name = n) : allOccur k ns eqs = .ok () := by
  unfold allOccur
  rw [if_pos]
  rw [List.all_eq_true]
  intro n hn
  obtain ⟨e, he, s, hs, hk, hname⟩ := h n hn
  have : s.date ∈ dates k n eqs := by
    unfold dates
    exact List.mem_map.2 ⟨s, List.mem_filter.2 ⟨List.mem_flatMap.2 ⟨e, he, hs⟩, by simp [hk, hname]⟩, rfl⟩
  cases hd : dates k n eqs with
  | nil => rw [hd] at this; cases this
  | cons d ds => rfl

/-- Symbols of variables stay where they are when lagged shocks are replaced, and those of the added variables occur. -/
theorem shockFold_kept (ho : IsOrder ord) (lag : String → Int) (shocks : List String) (st : PState K) :
    (∀ e ∈ st.eqs, ∀ s ∈ e.syms, s.kind = .variable → ∃ e' ∈ (shocks.foldl (shockStep ord lag) st).eqs, s ∈ e'.syms) ∧
    ∀ m ∈ lagged lag shocks, ∃ e' ∈ (shocks.foldl (shockStep ord lag) st).eqs, vsym (varOf m) ∈ e'.syms := by
  induction shocks generalizing st with
  | nil => exact ⟨fun e he s hs _ => ⟨e, he, hs⟩, fun m hm => by cases hm⟩
  | cons a ss ih =>
    rw [List.foldl_cons]
    have hkey : ∀ d n', ∀ kv ∈ ord (shockDict d n'), kv.1.kind = .shock := by
      intro d n' kv hkv
      rw [(ho _).mem_iff, shockDict, List.mem_map] at hkv
      obtain ⟨i, _, rfl⟩ := hkv; rfl
    have hstep : ∀ e ∈ st.eqs, ∀ s ∈ e.syms, s.kind = .variable → ∃ e' ∈ (shockStep ord lag st a).eqs, s ∈ e'.syms := by
      intro e he s hs hk
      unfold shockStep
      by_cases hl : (lag a).natAbs > 0
      · rw [if_pos hl]
        refine ⟨_, List.mem_map.2 ⟨e, List.mem_append_left _ he, rfl⟩, Eqn.mem_subs _ _ _ hs ?_⟩
        intro kv hkv heq
        rw [heq, hkey _ _ kv hkv] at hk; cases hk
      · rw [if_neg hl]; exact ⟨e, he, hs⟩
    refine ⟨fun e he s hs hk => ?_, fun m hm => ?_⟩
    · obtain ⟨e', he', hs'⟩ := hstep e he s hs hk
      exact (ih _).1 e' he' s hs' hk
    · simp only [lagged, List.mem_filter, List.mem_cons, decide_eq_true_eq] at hm
      obtain ⟨rfl | hm, hl⟩ := hm
      · have : ∃ e' ∈ (shockStep ord lag st m).eqs, vsym (varOf m) ∈ e'.syms := by
          unfold shockStep
          rw [if_pos hl]
          refine ⟨_, List.mem_map.2 ⟨_, List.mem_append_right _ (List.mem_singleton.2 rfl), rfl⟩, Eqn.mem_subs _ _ _ ?_ ?_⟩
          · simp [Eqn.syms, Expr.syms]
          · intro kv hkv heq
            have := hkey _ _ kv hkv
            rw [← heq] at this; cases this
        obtain ⟨e', he', hs'⟩ := this
        exact (ih _).1 e' he' _ hs' rfl
      · exact (ih _).2 m (by simp only [lagged, List.mem_filter, decide_eq_true_eq]; exact ⟨hm, hl⟩)

/-- **C123**: if no name is declared twice, the model equations can be read, there is one less than variables, and every variable and every
shock is named in a model equation, then the treatment of leads and lags succeeds. -/
theorem C123_used_names_suffice_partial (ho : IsOrder ord) (hv : ∀ n ∈ f.vars, n ∉ f.pars ∧ n ∉ f.shocks ∧ n ∉ f.other)
    (hs : ∀ n ∈ f.shocks, n ∉ f.other) (hl : f.eqs.length + 1 = f.vars.length) (eqs : List (Eqn K))
    (hE : readEqs (context f.vars f.pars f.shocks f.other) f.eqs = .ok eqs)
    (hu : ∀ n, n ∈ f.vars ∨ n ∈ f.shocks → ∃ e ∈ f.eqs, n ∈ eqNames e) : ∃ st, parseEqs ord f.vars f.shocks eqs = .ok st := by
  have hocc : ∀ n k, context f.vars f.pars f.shocks f.other n = some (.sym k) → (∃ e ∈ f.eqs, n ∈ eqNames e) →
      ∃ e ∈ eqs, ∃ s ∈ e.syms, s.kind = k ∧ s.name = n := by
    rintro n k hc ⟨e, he, hn⟩
    obtain ⟨e', he', hr⟩ := readEqs_mem hE e he
    obtain ⟨r, hrest, e1, e2⟩ := readEq_ok _ _ _ hr
    rcases List.mem_append.1 hn with hn | hn
    · obtain ⟨s, hs, h⟩ := evalRaw_mem _ _ _ e1 n k hn hc
      exact ⟨e', he', s, List.mem_append_left _ hs, h⟩
    · rcases hrest with ⟨h0, rfl⟩ | h0
      · rw [h0] at hn; cases hn
      · rw [h0] at hn
        obtain ⟨s, hs, h⟩ := evalRaw_mem _ _ _ e2 n k (by simpa using hn) hc
        exact ⟨e', he', s, List.mem_append_right _ hs, h⟩
  have h1 : allOccur .shock f.shocks eqs = .ok () := by
    refine allOccur_of fun n hn => hocc n .shock ?_ (hu n (Or.inr hn))
    rw [context_eq, if_neg (hs n hn), if_pos hn]
  have h2 : allOccur .variable (shockStage ord f.vars f.shocks eqs).vars (shockStage ord f.vars f.shocks eqs).eqs = .ok () := by
    refine allOccur_of fun n hn => ?_
    have hv1 : (shockStage ord f.vars f.shocks eqs).vars = f.vars ++ (lagged (lagOf eqs) f.shocks).map varOf :=
      shockFold_vars ord _ f.shocks ⟨f.vars, eqs⟩
    rw [hv1] at hn
    rcases List.mem_append.1 hn with hn | hn
    · obtain ⟨e, he, s, hse, hk, hname⟩ := hocc n .variable
        (by rw [context_eq, if_neg (hv n hn).2.2, if_neg (hv n hn).2.1, if_neg (hv n hn).1, if_pos hn]) (hu n (Or.inl hn))
      obtain ⟨e', he', hs'⟩ := (shockFold_kept ho (lagOf eqs) f.shocks ⟨f.vars, eqs⟩).1 e he s hse hk
      exact ⟨e', he', s, hs', hk, hname⟩
    · obtain ⟨m, hm, rfl⟩ := List.mem_map.1 hn
      obtain ⟨e', he', hs'⟩ := (shockFold_kept ho (lagOf eqs) f.shocks ⟨f.vars, eqs⟩).2 m hm
      exact ⟨e', he', _, hs', rfl, rfl⟩
  unfold parseEqs
  have hlen := (readEqs_ok _ _ _ hE).length_eq
  rw [if_neg (by omega), h1]
  simp only
  rw [h2]
  exact ⟨_, rfl⟩

end

/-! ## From the text of the file to the path -/

section
variable {K : Type} [Field K] [LinearOrder K] [IsStrictOrderedRing K]
variable {H z p : Type} [DecidableEq H] [Fintype H] [Fintype z] [Fintype p] [DecidableEq z] [DecidableEq p]
variable {E ν ε o : Type} [Fintype E] [Fintype ν] [Fintype ε] [Fintype o] [DecidableEq E] [DecidableEq ν] [DecidableEq ε]
variable {ord : List (TSym × TSym) → List (TSym × TSym)} {I : Interp K} {f : File K} {src : Source K} {C : Compiled K}
  {L : Labels E ν ε o src.shocks C} {cv : ν} {xbar tol : K} [DecidablePred (inall tol (inputOf L cv xbar))]
  {lay : Layout tol (inputOf L cv xbar) H z p}
  {orc : Oracle (Rows E H ε) (z ⊕ ε) p K} {lMax kMax : Nat} {sched : Nat → List Nat} {mod : Model z ε p o K}

/-- **C121**, end to end: the path that `t_func` generates satisfies, in every period, every equation of the text of the file, with
every name as declared; the constraint holds as written in slack periods, and the constrained variable is at `x_bar` in binding periods. -/
theorem C121_file_solved (ho : IsOrder ord) (hF : readFile ord I f = .ok (src, C)) (hcv : (L.vn cv : String) = src.cvar)
    (hp : Plain I src) (h : Succeeded lay orc lMax kMax sched mod) {l k : Nat} (hl : l ≤ lMax) (hk : k ≤ kMax) (st0 : p ⊕ z → K)
    (eps : ε → K) (X : Nat → p ⊕ z → K) (hX : ExpectedPath mod l k st0 eps X) :
    (∀ e ∈ f.eqs, ∀ t : Int, 0 ≤ t → RawHolds f I (namedPath lay st0 eps X) t e) ∧
    ∃ c r, f.cons = [(c, [r])] ∧ ∀ t : Nat, (¬ BindsAt l k t →
        namedPath lay st0 eps X .variable c t = rawVal f I (namedPath lay st0 eps X) t r) ∧
      (BindsAt l k t → namedPath lay st0 eps X .variable c t = xbar) := by
  obtain ⟨_, _, hC, hE, _, r, hr, _⟩ := read_ok hF
  obtain ⟨h1, h2⟩ := C82_model_file_solved ho hC hcv hp h hl hk st0 eps X hX
  refine ⟨fun e he t ht => ?_, src.cvar, r, hr, fun t => ⟨fun hb => ?_, (h2 t).2⟩⟩
  · have hf := (C121_names_as_declared ho hF (namedPath lay st0 eps X) t).1
    obtain ⟨i, hi, rfl⟩ := List.getElem_of_mem he
    have hi' : i < src.eqs.length := by rw [← hf.length_eq]; exact hi
    have := (List.forall₂_iff_get.1 hf).2 i hi hi'
    exact this.1 (h1 _ (List.getElem_mem hi') t ht)
  · rw [(h2 t).1 hb]
    obtain ⟨r', hr', hv⟩ := (C121_names_as_declared ho hF (namedPath lay st0 eps X) t).2.1
    rw [hr] at hr'
    have : r = r' := by
      have := congrArg (fun l => l.map Prod.snd) hr'
      simpa using this
    rw [this]; exact hv

end

/-! ## Examples and refutations -/

namespace ResolveEx
open FileEx

/-- `y = 3/4*y(-1) - r(+1) + e`. -/
def req : RawEq Rat :=
  ⟨.name "y", [.add (.sub (.mul (.div (.num 3) (.num 4)) (.call "y" (-1))) (.call "r" 1)) (.name "e")]⟩

def robs : Raw Rat := .sub (.num 1) (.mul (.num 2) (.name "y"))

/-- The file behind `FileEx.src`. -/
def file : File Rat := ⟨["y", "r"], ["a"], ["e"], [], [req], [("r", [.name "y"])], [robs]⟩

theorem accepted : ∃ C, readFile id I file = .ok (src, C) := by
  have h : (readFile id I file).toOption.isSome = true := by decide +kernel
  cases hr : readFile id I file with
  | error e => rw [hr] at h; cases h
  | ok a =>
    obtain ⟨src', C⟩ := a
    obtain ⟨hv, hs, hC, hE, hO, r, hr, hcr⟩ := read_ok hr
    have e1 : readEqs (context file.vars file.pars file.shocks file.other) file.eqs = .ok [eq1] := by decide +kernel
    have e2 : readObs (obsContext (context file.vars file.pars file.shocks file.other)) file.obs = .ok [oe] := by decide +kernel
    have e3 : evalRaw (context file.vars file.pars file.shocks file.other) (.name "y" : Raw Rat) = .ok (.sym (vsym "y")) := by decide +kernel
    rw [e1] at hE
    rw [e2] at hO
    simp only [file, List.cons.injEq, Prod.mk.injEq, and_true] at hr
    obtain ⟨hc, rfl⟩ := hr
    rw [e3] at hcr
    refine ⟨C, ?_⟩
    cases src'
    simp only [Except.ok.injEq] at hE hO hcr
    simp only at hv hs hc
    subst hE hO hcr hv hs hc
    rfl

/-- The hypotheses of C121 hold for this file. -/
example : (∀ n ∈ file.vars, n ∉ file.pars ∧ n ∉ file.shocks ∧ n ∉ file.other) ∧ ∀ n ∈ file.shocks, n ∉ file.other := by
  obtain ⟨C, hC⟩ := accepted
  exact C121_clashes_rejected_partial (fun d => List.Perm.refl d) hC

/-- Clash of a variable and a parameter: rejected. -/
example : (readFile id I { file with pars := ["a", "y"] }).toOption.isNone = true := by decide +kernel

/-- All hypotheses of the end to end statement of C121 hold for this file, with the spell `(1, 3)` after the shock `-9/4`. -/
example : ∃ (C : Compiled Rat) (L : Labels (Fin 1) (Fin 2) (Fin 1) (Fin 1) src.shocks C)
    (_ : DecidablePred (inall Ex1.tol (inputOf L 1 (-1)))) (lay : Layout Ex1.tol (inputOf L 1 (-1)) (Fin 0) (Fin 1) (Fin 1))
    (mod : Model (Fin 1) (Fin 1) (Fin 1) (Fin 1) Rat) (X : Nat → Fin 1 ⊕ Fin 1 → Rat),
    readFile id I file = .ok (src, C) ∧ ExpectedPath mod 1 3 0 (fun _ => -9/4) X ∧
      ∀ e ∈ file.eqs, ∀ t : Int, 0 ≤ t → RawHolds file I (namedPath lay 0 (fun _ => -9/4) X) t e := by
  obtain ⟨C, L, hC, hcv, hin⟩ := input (-1)
  obtain ⟨C', hF⟩ := accepted
  have hC' := (read_ok hF).2.2.1
  rw [hC] at hC'
  cases hC'
  have key : ∃ (_ : DecidablePred (inall Ex1.tol (inputOf L 1 (-1)))) (lay : Layout Ex1.tol (inputOf L 1 (-1)) (Fin 0) (Fin 1) (Fin 1))
      (orc : Oracle (Rows (Fin 1) (Fin 0) (Fin 1)) (Fin 1 ⊕ Fin 1) (Fin 1) Rat) (mod : Model (Fin 1) (Fin 1) (Fin 1) (Fin 1) Rat),
      Succeeded lay orc 2 30 (serial 30) mod ∧ NoLagFwd (inputOf L 1 (-1)) := by
    rw [hin]
    obtain ⟨mod, h⟩ := Ex1.succeeds (b := -1) 2 30 (Ex1.serial_perm 2 30)
    exact ⟨inferInstance, Ex1.lay, Ex1.orc, mod, h, noLagFwd_of_rc rfl⟩
  obtain ⟨dec, lay, orc, mod, h, hf⟩ := key
  obtain ⟨X, hX⟩ := (C15_elapsed_spell_reproduces_expected_path h hf (l := 1) (k := 3) (by omega) (by omega) 0 (fun _ => -9/4)).1
  exact ⟨C, L, dec, lay, mod, X, hF, hX,
    (C121_file_solved (fun d => List.Perm.refl d) hF hcv plain h (by omega) (by omega) 0 _ X hX).1⟩

/-- The hypotheses of C122 hold for this file with an undeclared name, and for one in which a shock occurs in the constraint only. -/
example : readFile id I { file with shocks := ["e", "u"], cons := [("r", [.add (.name "y") (.name "u")])] } = .error .syntaxError :=
  C122_malformed_partial rfl (by decide +kernel) (.unused "u" (by decide +kernel) (by decide +kernel))

example : readFile id I { file with shocks := [] } = .error .syntaxError :=
  C122_malformed_partial rfl (by decide +kernel) (.undeclared req (by decide +kernel) "e" (by decide +kernel) (by decide +kernel))

/-- The hypotheses of C123 hold for this file. -/
example : ∃ st, parseEqs id file.vars file.shocks [eq1] = .ok st :=
  C123_used_names_suffice_partial (fun d => List.Perm.refl d) (by decide +kernel) (by decide +kernel) rfl [eq1] (by decide +kernel) (by
    rintro n (hn | hn)
    · exact ⟨req, List.mem_singleton.2 rfl, by simp [file] at hn; rcases hn with rfl | rfl <;> decide +kernel⟩
    · exact ⟨req, List.mem_singleton.2 rfl, by simp [file] at hn; subst hn; decide +kernel⟩)

end ResolveEx

/-- **C121** refuted: the name of a parameter may also be that of a shock. In the equations it means the shock. -/
theorem C121_clashes_rejected_refuted : ∃ (I : Interp Rat) (f : File Rat) (src : Source Rat) (C : Compiled Rat),
    readFile id I f = .ok (src, C) ∧ ∃ n ∈ f.pars, n ∈ f.shocks := by
  let f : File Rat := { ResolveEx.file with pars := ["e"] }
  have h : (readFile id FileEx.I f).toOption.isSome = true := by decide +kernel
  cases hr : readFile id FileEx.I f with
  | error e => rw [hr] at h; cases h
  | ok a => exact ⟨FileEx.I, f, a.1, a.2, hr, "e", by decide +kernel, by decide +kernel⟩

/-- **C122** refuted: a model equation with two `=` raises `ValueError`, an undeclared name in a measurement equation `TypeError`. -/
theorem C122_malformed_refuted : ∃ (I : Interp Rat) (f g : File Rat),
    (∃ e ∈ f.eqs, 2 ≤ e.rest.length) ∧ (readFile id I f).toOption.isNone ∧ readFile id I f ≠ .error .syntaxError ∧
    (∃ e ∈ g.obs, ∃ n ∈ names e, n ∉ g.vars ∧ n ∉ g.pars ∧ n ∉ g.shocks ∧ n ∉ g.other) ∧
      (readFile id I g).toOption.isNone ∧ readFile id I g ≠ .error .syntaxError := by
  let err (x : Except PyErr (Source Rat × Compiled Rat)) : Option PyErr := match x with | .error e => some e | .ok _ => none
  have key : ∀ f, err (readFile id FileEx.I f) ≠ some .syntaxError → readFile id FileEx.I f ≠ .error .syntaxError := by
    intro f h h'; rw [h'] at h; exact h rfl
  refine ⟨FileEx.I, { ResolveEx.file with eqs := [⟨.name "y", [.call "y" (-1), .name "e"]⟩] }, { ResolveEx.file with obs := [.name "pi"] },
    ?_, ?_, key _ ?_, ?_, ?_, key _ ?_⟩
  · exact ⟨_, List.mem_singleton.2 rfl, by decide⟩
  all_goals decide +kernel

/-- **C123** refuted: a file in which every name is declared and used, with a shock in the constraint only, is rejected. -/
theorem C123_all_used_accepted_refuted : ∃ (I : Interp Rat) (f : File Rat) (c : String) (r : Raw Rat), f.cons = [(c, [r])] ∧
    f.eqs.length + 1 = f.vars.length ∧
    (∀ n ∈ f.vars ++ f.shocks, (∃ e ∈ f.eqs, n ∈ eqNames e) ∨ n = c ∨ n ∈ names r) ∧
    (∃ eqs, readEqs (context f.vars f.pars f.shocks f.other) f.eqs = .ok eqs) ∧
    (∃ e, evalRaw (context f.vars f.pars f.shocks f.other) r = .ok e) ∧ readFile id I f = .error .syntaxError := by
  let f : File Rat := { ResolveEx.file with shocks := ["e", "u"], cons := [("r", [.add (.name "y") (.name "u")])] }
  refine ⟨FileEx.I, f, "r", .add (.name "y") (.name "u"), rfl, rfl, ?_, ⟨[FileEx.eq1], by decide +kernel⟩,
    ⟨.add (.sym (vsym "y")) (.sym (ssym "u")), by decide +kernel⟩,
    C122_malformed_partial rfl (by decide +kernel) (.unused "u" (by decide +kernel) (by decide +kernel))⟩
  decide +kernel

end Pydsge
